import Verif.Lemmas.Prg
import Verif.Spec.Vidpf

/-!
# Helper lemmas about the VIDPF
-/

namespace Mastic

theorem pathString_eq (path : List Bool) : Spec.pathString path = bitsToBitstring path := by
  rw [bitsToBitstring_eq_map]; rfl

theorem expandDir_bits (P : Prims) (key : Block) (l r : Bool) :
    (expandDir P key l r).bits = (true, true) := prgBits_maskKey key

theorem expandDir_seed (P : Prims) (key : Block) (dir : Bool) :
    Pair.get (expandDir P key (!dir) dir).seeds dir = Pair.get (expand P key).seeds dir := by
  cases dir <;> rfl

@[simp] theorem Pair.get_true_true (dir : Bool) : Pair.get (true, true) dir = true := by
  cases dir <;> rfl

@[simp] theorem convert_word_length (P : Prims) (key : Block) (n : Nat) :
    (convert P key n).word.length = n + 1 := by simp [convert]

/-- What `eval_bit` computes when the correction word `cw` and correction seed `c` of the level are
there. -/
def evalBitPure (P : Prims) (keyIdx : Bool) (cw : CorWord) (c : Block) (state : EvalState)
    (dir : Bool) (bitStr : List Byte) (inputLen : Nat) : EvalState × List Field128 :=
  let seed0 := Pair.get (expand P state.seed).seeds dir
  let seed := if state.bit then vxor seed0 cw.seed else seed0
  let newBit := if state.bit then !(Pair.get cw.bits dir) else true
  let conv := convert P seed inputLen
  let word := if newBit then vecAdd conv.word cw.word else conv.word
  let word := if keyIdx then vecNeg word else word
  let piPrime := first16 (P.blake3 (bitStr ++ conv.seed.toList))
  let h := if newBit then vxor (vxor state.proof piPrime) c else vxor state.proof piPrime
  ({ level := state.level + 1, seed := conv.seed, bit := newBit,
     proof := vxor (first16 (P.blake3 h.toList)) state.proof }, word)

theorem evalBit_eq {P : Prims} {key : VidpfKey} {state : EvalState} {cw : CorWord} {c : Block}
    (hcw : key.corWords[state.level]? = some cw) (hc : key.cs[state.level]? = some c) (dir : Bool)
    (bitStr : List Byte) (n : Nat) :
    key.evalBit P state dir bitStr n = .ok (evalBitPure P key.keyIdx cw c state dir bitStr n) := by
  unfold VidpfKey.evalBit evalBitPure VidpfKey.correctSeed VidpfKey.correctWord
    VidpfKey.correctHash
  simp only [expandDir_bits, expandDir_seed, Pair.get_true_true, idx_eq_ok.2 hcw, idx_eq_ok.2 hc,
    ok_bind]
  cases hb : state.bit with
  | false =>
    simp only [Bool.false_eq_true, if_false, ok_bind, if_true, Bool.not_true]
  | true =>
    simp only [if_true, ok_bind, Bool.true_xor]
    cases hp : Pair.get cw.bits dir <;>
      simp

/-- Beyond the key's correction words `eval_bit` panics, whatever the state. -/
theorem evalBit_panics {P : Prims} {key : VidpfKey} {state : EvalState}
    (h : key.corWords.length ≤ state.level) (dir : Bool) (bitStr : List Byte) (n : Nat) :
    key.evalBit P state dir bitStr n = .error .index := by
  unfold VidpfKey.evalBit VidpfKey.correctSeed VidpfKey.correctWord
  simp only [expandDir_bits, Pair.get_true_true, idx_error_of_ge h, error_bind]
  cases state.bit <;> simp

/-- `eval_bit` only returns within the key's correction words. -/
theorem evalBit_level_lt {P : Prims} {key : VidpfKey} {state : EvalState} {dir : Bool}
    {bitStr : List Byte} {n : Nat} {r : EvalState × List Field128}
    (h : key.evalBit P state dir bitStr n = .ok r) : state.level < key.corWords.length := by
  by_contra hc
  rw [evalBit_panics (by omega)] at h
  cases h

/-- The level and the word length after `eval_bit`, for any key. -/
theorem evalBit_shape {P : Prims} {key : VidpfKey} {state : EvalState} {dir : Bool}
    {bitStr : List Byte} {n : Nat} {r : EvalState × List Field128}
    (h : key.evalBit P state dir bitStr n = .ok r) :
    r.1.level = state.level + 1 ∧ r.2.length = n + 1 := by
  unfold VidpfKey.evalBit at h
  simp only [bind_eq_ok] at h
  obtain ⟨⟨seed, nb⟩, -, w, hw, x, -, h⟩ := h
  cases h
  refine ⟨rfl, ?_⟩
  have hwl : w.length = n + 1 := by
    unfold VidpfKey.correctWord at hw
    split at hw
    · obtain ⟨cw, -, hw⟩ := bind_eq_ok.1 hw
      cases hw; simp
    · cases hw; simp
  split <;> simp [hwl]

/-! ### Walking a path -/

theorem walk_append (P : Prims) (key : VidpfKey) (n : Nat) (p q : List Bool) :
    ∀ (done : List Bool) (st : EvalState) (w : Option (List Field128)),
      Spec.walk P key n done st w (p ++ q)
        = (Spec.walk P key n done st w p >>= fun r => Spec.walk P key n (done ++ p) r.1 r.2 q) := by
  induction p with
  | nil => intro done st w; simp [Spec.walk]
  | cons b p ih =>
    intro done st w
    simp only [List.cons_append, Spec.walk]
    cases h : key.evalBit P st b (Spec.pathString (done ++ [b])) n with
    | error e => rfl
    | ok r =>
      simp only [ok_bind]
      rw [ih]
      simp

theorem evalPath_snoc (P : Prims) (key : VidpfKey) (n : Nat) (p : List Bool) (b : Bool) :
    Spec.evalPath P key n (p ++ [b])
      = (Spec.evalPath P key n p >>= fun r =>
          key.evalBit P r.1 b (Spec.pathString (p ++ [b])) n >>= fun r' => .ok (r'.1, some r'.2)) := by
  unfold Spec.evalPath
  rw [walk_append]
  cases Spec.walk P key n [] key.evalInit none p with
  | error e => rfl
  | ok r =>
    simp only [ok_bind, List.nil_append, Spec.walk]

theorem walk_shape {P : Prims} {key : VidpfKey} {n : Nat} {p : List Bool} :
    ∀ {done : List Bool} {st : EvalState} {w : Option (List Field128)}
      {r : EvalState × Option (List Field128)},
      Spec.walk P key n done st w p = .ok r →
      r.1.level = st.level + p.length ∧ (p ≠ [] → ∃ v, r.2 = some v ∧ v.length = n + 1) ∧
        (p ≠ [] → st.level + p.length ≤ key.corWords.length) := by
  induction p with
  | nil => intro done st w r h; cases h; simp
  | cons b p ih =>
    intro done st w r h
    rw [Spec.walk, bind_eq_ok] at h
    obtain ⟨r1, h1, h2⟩ := h
    obtain ⟨hl, hw⟩ := evalBit_shape h1
    obtain ⟨a, b', c⟩ := ih h2
    have hlt := evalBit_level_lt h1
    refine ⟨by rw [a, hl]; simp; omega, fun _ => ?_, fun _ => ?_⟩
    · by_cases hp : p = []
      · subst hp; cases h2; exact ⟨_, rfl, hw⟩
      · exact b' hp
    · by_cases hp : p = []
      · subst hp; simp; omega
      · have := c hp; simp; omega

theorem evalPath_level {P : Prims} {key : VidpfKey} {n : Nat} {p : List Bool}
    {r : EvalState × Option (List Field128)} (h : Spec.evalPath P key n p = .ok r) :
    r.1.level = p.length := by
  have := (walk_shape h).1
  simpa [VidpfKey.evalInit] using this

/-! ### Honestly generated keys -/

/-- What the two servers' states have in common after a prefix.  `rest`/`done` split `alpha` when the
prefix is on the path. -/
structure HonestAt (P : Prims) (beta : List Field128) (k0 k1 : VidpfKey) (alpha done : List Bool)
    (st0 st1 : EvalState) : Prop where
  level0 : st0.level = done.length
  level1 : st1.level = done.length
  on : done <+: alpha → ∃ rest bits seeds, alpha = done ++ rest ∧
    k0.corWords.drop done.length = (genLoop P beta rest done bits seeds).1 ∧
    k0.cs.drop done.length = (genLoop P beta rest done bits seeds).2 ∧
    st0.seed = seeds.1 ∧ st1.seed = seeds.2 ∧ st0.bit = bits.1 ∧ st1.bit = bits.2 ∧
    bits.1 = !bits.2
  off : ¬ done <+: alpha → st0.seed = st1.seed ∧ st0.bit = st1.bit

/-- The two keys come from one report: same public part, opposite indices, one correction per level. -/
structure KeyPair (k0 k1 : VidpfKey) (len : Nat) : Prop where
  idx0 : k0.keyIdx = false
  idx1 : k1.keyIdx = true
  cw : k1.corWords = k0.corWords
  cs : k1.cs = k0.cs
  cwLen : k0.corWords.length = len
  csLen : k0.cs.length = len

theorem genLoop_length (P : Prims) (beta : List Field128) (rest : List Bool) :
    ∀ done bits seeds, (genLoop P beta rest done bits seeds).1.length = rest.length ∧
      (genLoop P beta rest done bits seeds).2.length = rest.length := by
  induction rest with
  | nil => intros; exact ⟨rfl, rfl⟩
  | cons b rest ih =>
    intro done bits seeds
    simp [genLoop, ih]

theorem gen_keyPair (P : Prims) (rs : Block × Block) (alpha : List Bool) (beta : List Field128) :
    KeyPair (VidpfKey.gen P rs alpha beta).1 (VidpfKey.gen P rs alpha beta).2 alpha.length :=
  ⟨rfl, rfl, rfl, rfl, (genLoop_length P beta alpha _ _ _).1, (genLoop_length P beta alpha _ _ _).2⟩

theorem gen_lengths (P : Prims) (rs : Block × Block) (alpha : List Bool) (beta : List Field128)
    (server : Bool) :
    (Pair.get (VidpfKey.gen P rs alpha beta) server).corWords.length = alpha.length ∧
    (Pair.get (VidpfKey.gen P rs alpha beta) server).cs.length = alpha.length := by
  cases server <;> exact genLoop_length P beta alpha _ _ _

theorem gen_honestAt (P : Prims) (rs : Block × Block) (alpha : List Bool) (beta : List Field128)
    (pi pi' : Block) :
    HonestAt P beta (VidpfKey.gen P rs alpha beta).1 (VidpfKey.gen P rs alpha beta).2 alpha []
      { (VidpfKey.gen P rs alpha beta).1.evalInit with proof := pi }
      { (VidpfKey.gen P rs alpha beta).2.evalInit with proof := pi' } :=
  { level0 := rfl, level1 := rfl
    on := fun _ => ⟨alpha, (false, true), rs, rfl, rfl, rfl, rfl, rfl, rfl, rfl, rfl⟩
    off := fun h => absurd List.nil_prefix h }

theorem genCorWord_bits (P : Prims) (bit : Bool) (beta : List Field128) (bits : Bool × Bool)
    (seeds : Block × Block) (dir : Bool) :
    Pair.get (genCorWord P bit beta bits seeds).cw.bits dir = decide (dir = bit) := by
  simp only [genCorWord, expand, expandDir_bits]
  cases bit <;> cases dir <;> rfl

theorem genCorWord_word_length (P : Prims) (bit : Bool) (beta : List Field128) (bits : Bool × Bool)
    (seeds : Block × Block) : (genCorWord P bit beta bits seeds).cw.word.length = beta.length + 1 := by
  simp only [genCorWord]
  split <;> simp

/-- Word arithmetic on the path: the share difference is the programmed value. -/
theorem word_on (v c0 c1 : List Field128) (h0 : c0.length = v.length) (h1 : c1.length = v.length)
    (nb0 nb1 : Bool) (hb : nb0 = !nb1) :
    let w := vecAdd (vecSub v c0) c1
    let w := if nb1 then vecNeg w else w
    Spec.addShares (if nb0 then vecAdd c0 w else c0) (vecNeg (if nb1 then vecAdd c1 w else c1)) = v := by
  subst hb
  unfold Spec.addShares
  apply List.ext_getElem
  · cases nb1 <;> simp [h0, h1]
  · intro i hi1 hi2
    have e0 : i < c0.length := by omega
    have e1 : i < c1.length := by omega
    cases nb1
    · simp only [Bool.not_false, if_true, Bool.false_eq_true, if_false, List.getElem_zipWith]
      rw [vecAdd_getElem e0 (by simpa), vecAdd_getElem (by simpa) e1, vecSub_getElem hi2 e0]
      simp only [vecNeg, List.getElem_map]
      ring
    · simp only [Bool.not_true, if_true, Bool.false_eq_true, if_false, List.getElem_zipWith]
      simp only [vecNeg, List.getElem_map]
      rw [vecAdd_getElem e1 (by simpa), List.getElem_map, vecAdd_getElem (by simpa) e1,
        vecSub_getElem hi2 e0]
      ring

theorem addShares_neg_self (v : List Field128) :
    Spec.addShares v (vecNeg v) = List.replicate v.length 0 := by
  unfold Spec.addShares vecNeg
  apply List.ext_getElem
  · simp
  · intro i h1 h2; simp

/-- The seed server `b` converts on the path at one generation step. -/
def onSeed (P : Prims) (bit : Bool) (cwSeed : Block) (ctl : Bool) (seed : Block) : Block :=
  if ctl then vxor (Pair.get (expand P seed).seeds bit) cwSeed
  else Pair.get (expand P seed).seeds bit

theorem genCorWord_eq (P : Prims) (bit : Bool) (beta : List Field128) (bits : Bool × Bool)
    (seeds : Block × Block) :
    ∃ sd : Block,
      sd = vxor (Pair.get (expand P seeds.1).seeds (!bit)) (Pair.get (expand P seeds.2).seeds (!bit)) ∧
      genCorWord P bit beta bits seeds =
        { cw := { seed := sd, bits := (!bit, bit)
                  word :=
                    if !bits.2 then
                      vecNeg (vecAdd (vecSub (beta ++ [1])
                        (convert P (onSeed P bit sd bits.1 seeds.1) beta.length).word)
                        (convert P (onSeed P bit sd bits.2 seeds.2) beta.length).word)
                    else vecAdd (vecSub (beta ++ [1])
                        (convert P (onSeed P bit sd bits.1 seeds.1) beta.length).word)
                        (convert P (onSeed P bit sd bits.2 seeds.2) beta.length).word }
          bits := (!bits.1, !bits.2)
          seeds := ((convert P (onSeed P bit sd bits.1 seeds.1) beta.length).seed,
            (convert P (onSeed P bit sd bits.2 seeds.2) beta.length).seed) } := by
  refine ⟨_, rfl, ?_⟩
  simp only [genCorWord, genUpdate, onSeed]
  have hb : ∀ k, (expand P k).bits = (true, true) := fun k => expandDir_bits P k true true
  simp only [hb, Pair.get_true_true]
  cases bit <;> cases bits.1 <;> cases bits.2 <;> rfl

theorem vxor_cancel_a {n : Nat} (p a b : Vector Byte n) :
    vxor (vxor p a) (vxor a b) = vxor p b := by
  rw [vxor_assoc, vxor_cancel_left]

theorem vxor_cancel_b {n : Nat} (p a b : Vector Byte n) :
    vxor (vxor p b) (vxor a b) = vxor p a := by
  rw [vxor_comm a b, vxor_cancel_a]

theorem prefix_snoc_left {a b : List Bool} {x : Bool} (h : a ++ [x] <+: b) : a <+: b :=
  (List.prefix_append a [x]).trans h

/-- One step of evaluation with an honest pair of keys. -/
theorem honest_step {P : Prims} {beta : List Field128} {k0 k1 : VidpfKey} {alpha done : List Bool}
    {st0 st1 : EvalState} (hk : KeyPair k0 k1 alpha.length)
    (h : HonestAt P beta k0 k1 alpha done st0 st1) (hlen : done.length < alpha.length) (b : Bool) :
    ∃ r0 r1, k0.evalBit P st0 b (Spec.pathString (done ++ [b])) beta.length = .ok r0 ∧
      k1.evalBit P st1 b (Spec.pathString (done ++ [b])) beta.length = .ok r1 ∧
      HonestAt P beta k0 k1 alpha (done ++ [b]) r0.1 r1.1 ∧
      (st0.proof = st1.proof → r0.1.proof = r1.1.proof) ∧
      Spec.addShares r0.2 r1.2 = Spec.pointValue alpha beta (done ++ [b]) := by
  have hl0 : done.length < k0.corWords.length := by rw [hk.cwLen]; exact hlen
  have hl1 : done.length < k0.cs.length := by rw [hk.csLen]; exact hlen
  set cw := k0.corWords[done.length] with hcw
  set c := k0.cs[done.length] with hc
  have ecw : k0.corWords[done.length]? = some cw := List.getElem?_eq_getElem hl0
  have ec : k0.cs[done.length]? = some c := List.getElem?_eq_getElem hl1
  have hn0 := evalBit_eq (P := P) (key := k0) (state := st0) (by rw [h.level0]; exact ecw)
    (by rw [h.level0]; exact ec) b (Spec.pathString (done ++ [b])) beta.length
  have hn1 := evalBit_eq (P := P) (key := k1) (state := st1) (by rw [h.level1, hk.cw]; exact ecw)
    (by rw [h.level1, hk.cs]; exact ec) b (Spec.pathString (done ++ [b])) beta.length
  refine ⟨_, _, hn0, hn1, ?_⟩
  rw [hk.idx0, hk.idx1]
  have hlev : ∀ l : Nat, l = done.length → l + 1 = (done ++ [b]).length := by
    intro l hl; rw [hl]; simp
  -- equal seeds and bits before correction lead to an off-path pair
  have hoff : ∀ (s : Block) (nb : Bool), ¬ (done ++ [b] <+: alpha) →
      (∀ st : EvalState, st = st0 ∨ st = st1 →
        (if st.bit then vxor (Pair.get (expand P st.seed).seeds b) cw.seed
          else Pair.get (expand P st.seed).seeds b) = s ∧
        (if st.bit then !(Pair.get cw.bits b) else true) = nb) →
      HonestAt P beta k0 k1 alpha (done ++ [b])
          (evalBitPure P false cw c st0 b (Spec.pathString (done ++ [b])) beta.length).1
          (evalBitPure P true cw c st1 b (Spec.pathString (done ++ [b])) beta.length).1 ∧
        (st0.proof = st1.proof →
          (evalBitPure P false cw c st0 b (Spec.pathString (done ++ [b])) beta.length).1.proof =
          (evalBitPure P true cw c st1 b (Spec.pathString (done ++ [b])) beta.length).1.proof) ∧
        Spec.addShares (evalBitPure P false cw c st0 b (Spec.pathString (done ++ [b])) beta.length).2
          (evalBitPure P true cw c st1 b (Spec.pathString (done ++ [b])) beta.length).2
          = Spec.pointValue alpha beta (done ++ [b]) := by
    intro s nb hnp hs
    obtain ⟨e1, e2⟩ := hs st0 (Or.inl rfl)
    obtain ⟨e3, e4⟩ := hs st1 (Or.inr rfl)
    unfold evalBitPure
    simp only [e1, e2, e3, e4]
    refine ⟨⟨hlev _ h.level0, hlev _ h.level1, fun hp => absurd hp hnp, fun _ => ⟨rfl, rfl⟩⟩, ?_, ?_⟩
    · intro hproof; rw [hproof]
    · unfold Spec.pointValue
      rw [if_neg hnp]
      simp only [Bool.false_eq_true, if_false, if_true]
      rw [addShares_neg_self]
      cases nb <;> simp
  by_cases hon : done <+: alpha
  · obtain ⟨rest, bits, seeds, ha, hcws, hcss, hs0, hs1, hb0, hb1, hbits⟩ := h.on hon
    cases rest with
    | nil => rw [ha, List.append_nil] at hlen; omega
    | cons a rest =>
      rw [genLoop] at hcws hcss
      rw [List.drop_eq_getElem_cons hl0] at hcws
      rw [List.drop_eq_getElem_cons hl1] at hcss
      injection hcws with hcw1 hcws
      injection hcss with hc1 hcss
      rw [← hcw] at hcw1
      rw [← hc] at hc1
      have hpre : done ++ [b] <+: alpha ↔ b = a := by
        rw [ha, List.prefix_append_right_inj]
        simp [List.cons_prefix_cons]
      obtain ⟨sd, hsd, hg⟩ := genCorWord_eq P a beta bits seeds
      by_cases hba : b = a
      · -- stays on the path
        subst hba
        have hp : done ++ [b] <+: alpha := hpre.2 rfl
        set S0 := onSeed P b sd bits.1 seeds.1 with hS0
        set S1 := onSeed P b sd bits.2 seeds.2 with hS1
        have hgb : Pair.get cw.bits b = true := by rw [hcw1, hg]; cases b <;> rfl
        have hcs : cw.seed = sd := by rw [hcw1, hg]
        have eS0 : (if st0.bit then vxor (Pair.get (expand P st0.seed).seeds b) cw.seed
            else Pair.get (expand P st0.seed).seeds b) = S0 := by
          rw [hS0, hcs, hs0, hb0]; rfl
        have eS1 : (if st1.bit then vxor (Pair.get (expand P st1.seed).seeds b) cw.seed
            else Pair.get (expand P st1.seed).seeds b) = S1 := by
          rw [hS1, hcs, hs1, hb1]; rfl
        have eB0 : (if st0.bit then !(Pair.get cw.bits b) else true) = !bits.1 := by
          rw [hgb, hb0]; cases bits.1 <;> rfl
        have eB1 : (if st1.bit then !(Pair.get cw.bits b) else true) = !bits.2 := by
          rw [hgb, hb1]; cases bits.2 <;> rfl
        unfold evalBitPure
        simp only [eS0, eS1, eB0, eB1]
        rw [hg] at hcws hcss hc1 hcw1
        simp only at hcws hcss hc1
        refine ⟨⟨hlev _ h.level0, hlev _ h.level1, fun _ => ?_, fun hnp => absurd hp hnp⟩, ?_, ?_⟩
        · refine ⟨rest, (!bits.1, !bits.2), ((convert P S0 beta.length).seed,
            (convert P S1 beta.length).seed), ?_, ?_, ?_, rfl, rfl, rfl, rfl, ?_⟩
          · rw [ha]; simp
          · rw [← hcws]; simp
          · rw [← hcss]; simp
          · simp [hbits]
        · -- proofs agree
          intro hproof
          rw [← hproof, hc1, first16_vxor, ← pathString_eq, hbits]
          cases bits.2
          · simp only [Bool.not_false, Bool.not_true, if_true, Bool.false_eq_true, if_false]
            rw [vxor_cancel_b]
          · simp only [Bool.not_false, Bool.not_true, if_true, Bool.false_eq_true, if_false]
            rw [vxor_cancel_a]
        · unfold Spec.pointValue
          rw [if_pos hp]
          have hw := word_on (beta ++ [1]) (convert P S0 beta.length).word
            (convert P S1 beta.length).word (by simp) (by simp) (!bits.1) (!bits.2) (by simp [hbits])
          rw [hcw1]
          simpa using hw
      · have hnp : ¬ done ++ [b] <+: alpha := fun hp => hba (hpre.1 hp)
        have hab : b = !a := by clear * - hba; revert hba; cases a <;> cases b <;> decide
        refine hoff (if bits.2 then Pair.get (expand P seeds.1).seeds b
          else Pair.get (expand P seeds.2).seeds b) true hnp ?_
        rw [hcw1, hg]
        subst hab
        have hbb : Pair.get (!a, a) (!a) = false := by cases a <;> rfl
        simp only [hbb]
        rintro st (rfl | rfl)
        · rw [hb0, hs0, hbits, hsd]
          cases bits.2
          · simp [vxor_cancel_left]
          · simp
        · rw [hb1, hs1, hsd]
          cases bits.2
          · simp
          · simp only [if_true, Bool.not_false, and_true]
            rw [vxor_comm (Pair.get (expand P seeds.1).seeds _), vxor_cancel_left]
  · have hnp : ¬ done ++ [b] <+: alpha := fun hp => hon (prefix_snoc_left hp)
    obtain ⟨e1, e2⟩ := h.off hon
    refine hoff (if st0.bit then vxor (Pair.get (expand P st0.seed).seeds b) cw.seed
        else Pair.get (expand P st0.seed).seeds b)
      (if st0.bit then !(Pair.get cw.bits b) else true) hnp ?_
    rintro st (rfl | rfl)
    · exact ⟨rfl, rfl⟩
    · rw [← e1, ← e2]; exact ⟨rfl, rfl⟩


/-- Both servers walk any path within the domain. -/
theorem honest_walk {P : Prims} {beta : List Field128} {k0 k1 : VidpfKey} {alpha : List Bool}
    (hk : KeyPair k0 k1 alpha.length) (p : List Bool) :
    ∀ (done : List Bool) (st0 st1 : EvalState) (w0 w1 : Option (List Field128)),
      HonestAt P beta k0 k1 alpha done st0 st1 → done.length + p.length ≤ alpha.length →
      ∃ r0 r1, Spec.walk P k0 beta.length done st0 w0 p = .ok r0 ∧
        Spec.walk P k1 beta.length done st1 w1 p = .ok r1 ∧
        HonestAt P beta k0 k1 alpha (done ++ p) r0.1 r1.1 ∧
        (st0.proof = st1.proof → r0.1.proof = r1.1.proof) ∧
        (p ≠ [] → ∃ v0 v1, r0.2 = some v0 ∧ r1.2 = some v1 ∧ v0.length = beta.length + 1 ∧
          v1.length = beta.length + 1 ∧
          Spec.addShares v0 v1 = Spec.pointValue alpha beta (done ++ p)) := by
  induction p with
  | nil =>
    intro done st0 st1 w0 w1 h _
    exact ⟨_, _, rfl, rfl, by simpa using h, id, fun h => absurd rfl h⟩
  | cons b p ih =>
    intro done st0 st1 w0 w1 h hlen
    simp only [List.length_cons] at hlen
    obtain ⟨r0, r1, e0, e1, h', hp, hs⟩ := honest_step hk h (by omega) b
    obtain ⟨q0, q1, f0, f1, h'', hp', hs'⟩ := ih (done ++ [b]) r0.1 r1.1 (some r0.2) (some r1.2) h'
      (by simp; omega)
    refine ⟨q0, q1, ?_, ?_, by simpa using h'', fun hh => hp' (hp hh), fun _ => ?_⟩
    · rw [Spec.walk, e0]; exact f0
    · rw [Spec.walk, e1]; exact f1
    · by_cases hpn : p = []
      · subst hpn
        cases f0; cases f1
        exact ⟨_, _, rfl, rfl, (evalBit_shape e0).2, (evalBit_shape e1).2, hs⟩
      · simpa using hs' hpn

/-- Honest shares at a path: the form used for whole protocol runs. -/
theorem honest_evalPath (P : Prims) (rs : Block × Block) (alpha : List Bool) (beta : List Field128)
    (p : List Bool) (hlen : p.length ≤ alpha.length) :
    ∃ r0 r1, Spec.evalPath P (VidpfKey.gen P rs alpha beta).1 beta.length p = .ok r0 ∧
      Spec.evalPath P (VidpfKey.gen P rs alpha beta).2 beta.length p = .ok r1 ∧
      r0.1.proof = r1.1.proof ∧
      (p ≠ [] → ∃ v0 v1, r0.2 = some v0 ∧ r1.2 = some v1 ∧ v0.length = beta.length + 1 ∧
        v1.length = beta.length + 1 ∧ Spec.addShares v0 v1 = Spec.pointValue alpha beta p) := by
  obtain ⟨r0, r1, e0, e1, -, hp, hs⟩ := honest_walk (gen_keyPair P rs alpha beta) p [] _ _ none none
    (gen_honestAt P rs alpha beta Block.zero Block.zero) (by simpa using hlen)
  exact ⟨r0, r1, e0, e1, hp rfl, by simpa using hs⟩

/-! ### `eval` -/

theorem honest_evalLoop {P : Prims} {beta : List Field128} {k0 k1 : VidpfKey} {alpha : List Bool}
    (hk : KeyPair k0 k1 alpha.length) (p : List Bool) :
    ∀ (done : List Bool) (st0 st1 : EvalState),
      HonestAt P beta k0 k1 alpha done st0 st1 → done.length + p.length ≤ alpha.length →
      ∃ o0 o1 s0 s1, k0.evalLoop P beta.length p done st0 = .ok (o0, s0, done ++ p) ∧
        k1.evalLoop P beta.length p done st1 = .ok (o1, s1, done ++ p) ∧
        HonestAt P beta k0 k1 alpha (done ++ p) s0 s1 ∧
        (st0.proof = st1.proof → s0.proof = s1.proof) ∧
        o0.length = p.length ∧ o1.length = p.length ∧
        List.zipWith Spec.addShares o0 o1
          = (List.range p.length).map fun i =>
              Spec.pointValue alpha beta (done ++ p.take (i + 1)) := by
  induction p with
  | nil =>
    intro done st0 st1 h _
    exact ⟨[], [], st0, st1, by simp [VidpfKey.evalLoop], by simp [VidpfKey.evalLoop],
      by simpa using h, id, rfl, rfl, rfl⟩
  | cons b p ih =>
    intro done st0 st1 h hlen
    simp only [List.length_cons] at hlen
    obtain ⟨r0, r1, e0, e1, h', hp, hs⟩ := honest_step hk h (by omega) b
    obtain ⟨o0, o1, s0, s1, f0, f1, h'', hp', l0, l1, hs'⟩ := ih (done ++ [b]) r0.1 r1.1 h'
      (by simp; omega)
    rw [pathString_eq] at e0 e1
    refine ⟨r0.2 :: o0, r1.2 :: o1, s0, s1, ?_, ?_, by simpa using h'', fun hh => hp' (hp hh),
      by simp [l0], by simp [l1], ?_⟩
    · rw [VidpfKey.evalLoop]; simp only [e0, ok_bind, f0]; simp
    · rw [VidpfKey.evalLoop]; simp only [e1, ok_bind, f1]; simp
    · rw [List.zipWith_cons_cons, hs', hs, List.length_cons, List.range_succ_eq_map, List.map_cons,
        List.map_map]
      simp [Function.comp_def]

/-- `eval_bit`'s value share does not depend on the string or on the incoming proof. -/
theorem evalBit_word_congr {P : Prims} {key : VidpfKey} {st : EvalState} {dir : Bool}
    {s s' : List Byte} {n : Nat} {r r' : EvalState × List Field128}
    (h : key.evalBit P st dir s n = .ok r) (h' : key.evalBit P st dir s' n = .ok r') :
    r.2 = r'.2 := by
  unfold VidpfKey.evalBit at h h'
  simp only [bind_eq_ok] at h h'
  obtain ⟨x, hx, w, hw, _, _, h⟩ := h
  obtain ⟨x', hx', w', hw', _, _, h'⟩ := h'
  rw [hx] at hx'; cases hx'
  rw [hw] at hw'; cases hw'
  cases h; cases h'; rfl

/-- `eval_bit` returns exactly when the level is inside the key, for keys with as many correction
seeds as correction words. -/
theorem evalBit_returns_iff {P : Prims} {key : VidpfKey} (hcs : key.cs.length = key.corWords.length)
    (st : EvalState) (dir : Bool) (s : List Byte) (n : Nat) :
    Returns (key.evalBit P st dir s n) ↔ st.level < key.corWords.length := by
  constructor
  · rintro ⟨r, h⟩; exact evalBit_level_lt h
  · intro h
    exact ⟨_, evalBit_eq (List.getElem?_eq_getElem h)
      (List.getElem?_eq_getElem (by rw [hcs]; exact h)) dir s n⟩

theorem evalLoop_returns_iff {P : Prims} {key : VidpfKey}
    (hcs : key.cs.length = key.corWords.length) (n : Nat) (p : List Bool) :
    ∀ (done : List Bool) (st : EvalState),
      (st.level + p.length ≤ key.corWords.length →
        ∃ o s, key.evalLoop P n p done st = .ok (o, s, done ++ p) ∧
          s.level = st.level + p.length) ∧
      (key.corWords.length < st.level + p.length → p ≠ [] → Panics (key.evalLoop P n p done st)) := by
  induction p with
  | nil =>
    intro done st
    exact ⟨fun _ => ⟨[], st, by simp [VidpfKey.evalLoop], by simp⟩, fun _ h => absurd rfl h⟩
  | cons b p ih =>
    intro done st
    constructor
    · intro h
      simp only [List.length_cons] at h
      obtain ⟨r, hr⟩ := (evalBit_returns_iff (P := P) hcs st b (bitsToBitstring (done ++ [b])) n).2
        (by omega)
      have hl := (evalBit_shape hr).1
      obtain ⟨o, s, e, es⟩ := (ih (done ++ [b]) r.1).1 (by omega)
      refine ⟨r.2 :: o, s, ?_, by rw [es, hl]; simp; omega⟩
      rw [VidpfKey.evalLoop]; simp only [hr, ok_bind, e]; simp
    · intro h _
      simp only [List.length_cons] at h
      rw [VidpfKey.evalLoop]
      by_cases hl : st.level < key.corWords.length
      · obtain ⟨r, hr⟩ := (evalBit_returns_iff (P := P) hcs st b (bitsToBitstring (done ++ [b])) n).2
          hl
        have hlv := (evalBit_shape hr).1
        obtain ⟨e, he⟩ := (ih (done ++ [b]) r.1).2 (by omega) (by rintro rfl; simp at h; omega)
        exact ⟨e, by simp only [hr, ok_bind, he, error_bind]⟩
      · exact ⟨.index, by simp only [evalBit_panics (Nat.le_of_not_lt hl), error_bind]⟩


theorem honest_eval (P : Prims) (bld bld' : Build) (rs : Block × Block) (alpha : List Bool)
    (beta : List Field128) (index : List Bool) (pi0 pi1 : Block) (hne : index ≠ [])
    (hlen : index.length ≤ alpha.length) :
    ∃ out0 last0 pi0' out1 last1 pi1',
      (VidpfKey.gen P rs alpha beta).1.eval P bld index pi0 beta.length = .ok (out0, last0, pi0') ∧
      (VidpfKey.gen P rs alpha beta).2.eval P bld' index pi1 beta.length = .ok (out1, last1, pi1') ∧
      out0.length + 1 = index.length ∧ out1.length + 1 = index.length ∧
      (pi0 = pi1 → pi0' = pi1') ∧
      List.zipWith Spec.addShares (out0 ++ [last0]) (out1 ++ [last1])
        = (List.range index.length).map fun i =>
            Spec.pointValue alpha beta (index.take (i + 1)) := by
  have hk := gen_keyPair P rs alpha beta
  obtain ⟨l, b, rfl⟩ : ∃ l b, index = l ++ [b] :=
    ⟨index.dropLast, index.getLast hne, (List.dropLast_append_getLast hne).symm⟩
  simp only [List.length_append, List.length_cons, List.length_nil] at hlen
  obtain ⟨o0, o1, s0, s1, f0, f1, h', hp, l0, l1, hs⟩ := honest_evalLoop hk l [] _ _
    (gen_honestAt P rs alpha beta pi0 pi1) (by simp; omega)
  obtain ⟨r0, r1, e0, e1, -, -, hw⟩ := honest_step hk h' (by simp; omega) b
  simp only [List.nil_append] at e0 e1 f0 f1 hw hs h'
  have hd0 : s0.level < (VidpfKey.gen P rs alpha beta).1.corWords.length := by
    rw [hk.cwLen, h'.level0]; omega
  have hd1 : s1.level < (VidpfKey.gen P rs alpha beta).2.corWords.length := by
    rw [hk.cw, hk.cwLen, h'.level1]; omega
  obtain ⟨q0, g0⟩ := (evalBit_returns_iff (P := P) (hk.csLen.trans hk.cwLen.symm) s0 b
    (bitsToBitstring l) beta.length).2 hd0
  obtain ⟨q1, g1⟩ := (evalBit_returns_iff (P := P)
    (by rw [hk.cs, hk.cw]; exact hk.csLen.trans hk.cwLen.symm) s1 b
    (bitsToBitstring l) beta.length).2 hd1
  have w0 := evalBit_word_congr e0 g0
  have w1 := evalBit_word_congr e1 g1
  have dom0 : (VidpfKey.gen P rs alpha beta).1.domainSize = alpha.length := hk.cwLen
  have dom1 : (VidpfKey.gen P rs alpha beta).2.domainSize = alpha.length := by
    unfold VidpfKey.domainSize; rw [hk.cw, hk.cwLen]
  refine ⟨o0, q0.2, s0.proof, o1, q1.2, s1.proof, ?_, ?_, by simp [l0], by simp [l1],
    fun h => hp h, ?_⟩
  · unfold VidpfKey.eval
    have c1 : decide ((l ++ [b]).length ≤ (VidpfKey.gen P rs alpha beta).1.domainSize) = true := by
      rw [dom0]; simp; omega
    have c2 : (!(l ++ [b]).isEmpty) = true := by cases l <;> rfl
    simp only [c1, c2, debugAssert_true, ok_bind, List.dropLast_concat, f0,
      List.getLast?_append, List.getLast?_singleton, Option.some_or, unwrapO_some, g0]
  · unfold VidpfKey.eval
    have c1 : decide ((l ++ [b]).length ≤ (VidpfKey.gen P rs alpha beta).2.domainSize) = true := by
      rw [dom1]; simp; omega
    have c2 : (!(l ++ [b]).isEmpty) = true := by cases l <;> rfl
    simp only [c1, c2, debugAssert_true, ok_bind, List.dropLast_concat, f1,
      List.getLast?_append, List.getLast?_singleton, Option.some_or, unwrapO_some, g1]
  · rw [List.zipWith_append (by rw [l0, l1]), hs, List.length_append, List.length_singleton,
      List.range_succ, List.map_append, ← w0, ← w1]
    congr 1
    · apply List.map_congr_left
      intro i hi
      rw [List.mem_range] at hi
      rw [List.take_append_of_le_length (by omega)]
    · simp only [List.zipWith_cons_cons, List.zipWith_nil_left, List.map_cons, List.map_nil]
      rw [hw, List.take_of_length_le (by simp)]

theorem eval_returns_iff {P : Prims} {key : VidpfKey} (hcs : key.cs.length = key.corWords.length)
    (bld : Build) (index : List Bool) (pi : Block) (n : Nat) :
    Returns (key.eval P bld index pi n) ↔ index ≠ [] ∧ index.length ≤ key.corWords.length := by
  by_cases hne : index = []
  · subst hne
    simp only [ne_eq, not_true_eq_false, false_and, iff_false]
    rw [not_returns_iff]
    unfold VidpfKey.eval
    cases bld
    · exact ⟨.debugAssertion, by simp⟩
    · exact ⟨.unwrap, by simp [VidpfKey.evalLoop, unwrapO]⟩
  obtain ⟨l, b, rfl⟩ : ∃ l b, index = l ++ [b] :=
    ⟨index.dropLast, index.getLast hne, (List.dropLast_append_getLast hne).symm⟩
  have c2 : (!(l ++ [b]).isEmpty) = true := by cases l <;> rfl
  simp only [hne, not_false_eq_true, ne_eq, true_and, List.length_append, List.length_singleton]
  have hloop := evalLoop_returns_iff (P := P) hcs n l [] { key.evalInit with proof := pi }
  have hlv : ({ key.evalInit with proof := pi } : EvalState).level = 0 := rfl
  rw [hlv, Nat.zero_add] at hloop
  constructor
  · rintro ⟨r, hr⟩
    unfold VidpfKey.eval at hr
    simp only [c2, debugAssert_true, ok_bind, bind_eq_ok, List.dropLast_concat] at hr
    obtain ⟨_, -, ⟨o, s, d⟩, h2, lb, -, ⟨x, y⟩, h3, -⟩ := hr
    have hl := evalBit_level_lt h3
    by_cases hle : l.length ≤ key.corWords.length
    · obtain ⟨o', s', e, es⟩ := hloop.1 hle
      rw [h2] at e
      cases e
      simp only at hl
      omega
    · obtain ⟨p, hp⟩ := hloop.2 (by omega) (by rintro rfl; simp at hle)
      rw [h2] at hp; cases hp
  · intro h
    obtain ⟨o, s, e, es⟩ := hloop.1 (by omega)
    obtain ⟨r, hr⟩ := (evalBit_returns_iff (P := P) hcs s b (bitsToBitstring l) n).2 (by omega)
    refine ⟨(o, r.2, s.proof), ?_⟩
    unfold VidpfKey.eval
    have c1 : decide ((l ++ [b]).length ≤ key.domainSize) = true := by
      unfold VidpfKey.domainSize; simp; omega
    simp only [c1, c2, debugAssert_true, ok_bind, List.dropLast_concat, e, List.nil_append,
      List.getLast?_append, List.getLast?_singleton, Option.some_or, unwrapO_some, hr]

theorem genLoop_bits (P : Prims) (beta : List Field128) (rest : List Bool) :
    ∀ done bits seeds, (genLoop P beta rest done bits seeds).1.map (fun cw => cw.bits.2) = rest := by
  induction rest with
  | nil => intros; rfl
  | cons b rest ih =>
    intro done bits seeds
    simp only [genLoop, List.map_cons, ih]
    congr 1
    obtain ⟨sd, -, hg⟩ := genCorWord_eq P b beta bits seeds
    rw [hg]

/-- `eval_bit` looks at the seed of its state only through the masked seed. -/
theorem evalBit_seed_congr (P : Prims) (key key' : VidpfKey) (hi : key.keyIdx = key'.keyIdx)
    (hc : key.corWords = key'.corWords) (hs : key.cs = key'.cs) (st st' : EvalState)
    (hl : st.level = st'.level) (hb : st.bit = st'.bit) (hp : st.proof = st'.proof)
    (hm : maskKey st.seed = maskKey st'.seed) (dir : Bool) (s : List Byte) (n : Nat) :
    key.evalBit P st dir s n = key'.evalBit P st' dir s n := by
  unfold VidpfKey.evalBit VidpfKey.correctSeed VidpfKey.correctWord VidpfKey.correctHash
  have : ∀ l r, expandDir P st.seed l r = expandDir P st'.seed l r := by
    intro l r; unfold expandDir; rw [hm]
  simp only [this, hi, hc, hs, hl, hb, hp]

theorem eval_rootSeed_congr (P : Prims) (bld : Build) (key : VidpfKey) (seed' : Block)
    (hm : maskKey key.rootSeed = maskKey seed') (index : List Bool) (pi : Block) (n : Nat) :
    { key with rootSeed := seed' }.eval P bld index pi n = key.eval P bld index pi n := by
  have hbit : ∀ st dir s, ({ key with rootSeed := seed' } : VidpfKey).evalBit P st dir s n
      = key.evalBit P st dir s n :=
    fun st dir s => evalBit_seed_congr P _ key rfl rfl rfl st st rfl rfl rfl rfl dir s n
  have hloop : ∀ (p done : List Bool) st,
      ({ key with rootSeed := seed' } : VidpfKey).evalLoop P n p done st
        = key.evalLoop P n p done st := by
    intro p
    induction p with
    | nil => intros; rfl
    | cons b p ih =>
      intro done st
      simp only [VidpfKey.evalLoop, hbit, ih]
  have hfirst : ∀ dir s, key.evalBit P ⟨0, seed', key.keyIdx, pi⟩ dir s n
      = key.evalBit P ⟨0, key.rootSeed, key.keyIdx, pi⟩ dir s n :=
    fun dir s => evalBit_seed_congr P key key rfl rfl rfl ⟨0, seed', key.keyIdx, pi⟩
      ⟨0, key.rootSeed, key.keyIdx, pi⟩ rfl rfl rfl hm.symm dir s n
  unfold VidpfKey.eval
  simp only [hbit, hloop, VidpfKey.evalInit]
  cases index with
  | nil => cases bld <;> simp [VidpfKey.evalLoop, unwrapO]
  | cons b l =>
    cases l with
    | nil =>
      simp only [List.dropLast_singleton, VidpfKey.evalLoop, ok_bind, List.getLast?_singleton,
        unwrapO_some, hfirst]
      rfl
    | cons b' l =>
      simp only [List.dropLast_cons_cons, VidpfKey.evalLoop, hfirst]
      rfl

end Mastic
