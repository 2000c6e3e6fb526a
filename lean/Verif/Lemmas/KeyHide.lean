import Verif.Lemmas.Prio3Hide
import Verif.Spec.KeyHide

/-!
# Keys for two weights that look the same to one server
-/

namespace Mastic

theorem ksBlock_eq (P : Prims) (s : Block) (i : Nat) :
    ksBlock P s i = vxor (P.aes (Spec.cipherInput P s i)) (Spec.cipherInput P s i) := rfl

theorem expand_seeds (P : Prims) (s : Block) (d : Bool) : Pair.get (expand P s).seeds d = Spec.child P s d := by
  cases d <;> rfl

/-- What `gen_cor_word` returns. -/
theorem genCorWord_path (P : Prims) (bit : Bool) (beta : List Field128) (t : Bool × Bool) (s : Block × Block)
    {cw : Block} {u : Block × Block} (hcw : cw = vxor (Spec.child P s.1 (!bit)) (Spec.child P s.2 (!bit)))
    (hu : u = (if t.1 then vxor (Spec.child P s.1 bit) cw else Spec.child P s.1 bit,
      if t.2 then vxor (Spec.child P s.2 bit) cw else Spec.child P s.2 bit)) :
    genCorWord P bit beta t s =
      { cw := { seed := cw, bits := (!bit, bit),
                word := if !t.2 then vecNeg (vecAdd (vecSub (beta ++ [1]) (convert P u.1 beta.length).word)
                    (convert P u.2 beta.length).word)
                  else vecAdd (vecSub (beta ++ [1]) (convert P u.1 beta.length).word) (convert P u.2 beta.length).word }
        bits := (!t.1, !t.2)
        seeds := (vxor (P.aes u.1) u.1, vxor (P.aes u.2) u.2) } := by
  subst hcw hu
  have hb : ∀ k, (expand P k).bits = (true, true) := fun k => prgBits_maskKey k
  simp only [genCorWord, genUpdate, expand_seeds, hb]
  have hg : ∀ x : Bool, Pair.get ((true, true) : Bool × Bool) x = true := fun x => by cases x <;> rfl
  have hk : Pair.get (((true ^^ true) ^^ bit) ^^ true, (true ^^ true) ^^ bit) bit = true := by cases bit <;> rfl
  simp only [hg, hk]
  have h1 : ∀ t : Bool, (if t = true then (true ^^ true) else true) = !t := fun t => by cases t <;> rfl
  simp only [h1]
  have h2 : (((true ^^ true) ^^ bit) ^^ true, (true ^^ true) ^^ bit) = (!bit, bit) := by cases bit <;> rfl
  rw [h2]
  rfl

theorem child_congr {P P' : Prims} (ha : P'.arch = P.arch) {s : Block}
    (h0 : P'.aes (maskKey s) = P.aes (maskKey s))
    (h1 : P'.aes (incBe P.arch (maskKey s)) = P.aes (incBe P.arch (maskKey s))) (d : Bool) :
    Spec.child P' s d = Spec.child P s d := by
  unfold Spec.child Spec.cipherInput
  rw [ha]
  cases d
  · simp only [Bool.false_eq_true, if_false, Function.iterate_zero, id_eq]; rw [h0]
  · simp only [if_true, Function.iterate_one]; rw [h1]

/-- Two ciphers under which the same correction words come out for two weights; both agree with a third one on the path. -/
theorem genLoop_same {Q P P' : Prims} (ha : P.arch = Q.arch) (ha' : P'.arch = Q.arch) (hb3 : P'.blake3 = P.blake3)
    {beta beta' : List Field128} (hl : beta'.length = beta.length) :
    ∀ (alpha done : List Bool) (t : Bool × Bool) (s : Block × Block),
    (∀ e ∈ Spec.genPath Q alpha t s,
      (∀ c ∈ [maskKey e.1.1, incBe Q.arch (maskKey e.1.1), maskKey e.1.2, incBe Q.arch (maskKey e.1.2), e.2.1, e.2.2],
        P.aes c = Q.aes c ∧ P'.aes c = Q.aes c) ∧
      vecAdd (vecSub (beta' ++ [1]) (convert P' e.2.1 beta.length).word) (convert P' e.2.2 beta.length).word
        = vecAdd (vecSub (beta ++ [1]) (convert P e.2.1 beta.length).word) (convert P e.2.2 beta.length).word) →
    genLoop P' beta' alpha done t s = genLoop P beta alpha done t s
  | [], _, _, _, _ => rfl
  | bit :: rest, done, t, s, h => by
    rw [Spec.genPath] at h
    have h0 := h _ (List.mem_cons_self ..)
    have hr := fun e he => h e (List.mem_cons_of_mem _ he)
    simp only [List.mem_cons, List.not_mem_nil, or_false] at h0
    obtain ⟨hc, hw⟩ := h0
    have hc1 := fun c hm => (hc c hm).1
    have hc2 := fun c hm => (hc c hm).2
    have c0 := child_congr ha' (hc2 _ (.inl rfl)) (hc2 _ (.inr (.inl rfl)))
    have c1 := child_congr ha' (hc2 _ (.inr (.inr (.inl rfl)))) (hc2 _ (.inr (.inr (.inr (.inl rfl)))))
    have u0 := hc2 _ (.inr (.inr (.inr (.inr (.inl rfl)))))
    have u1 := hc2 _ (.inr (.inr (.inr (.inr (.inr rfl)))))
    have d0 := child_congr ha (hc1 _ (.inl rfl)) (hc1 _ (.inr (.inl rfl)))
    have d1 := child_congr ha (hc1 _ (.inr (.inr (.inl rfl)))) (hc1 _ (.inr (.inr (.inr (.inl rfl)))))
    have v0 := hc1 _ (.inr (.inr (.inr (.inr (.inl rfl)))))
    have v1 := hc1 _ (.inr (.inr (.inr (.inr (.inr rfl)))))
    have ih := genLoop_same ha ha' hb3 hl rest (done ++ [bit]) _ _ hr
    have e1 := genCorWord_path P bit beta t s rfl rfl
    have e2 := genCorWord_path P' bit beta' t s rfl rfl
    rw [c0, c0, c1, c1, hl] at e2
    rw [d0, d0, d1, d1] at e1
    simp only [] at e1 e2
    rw [u0, u1, hw] at e2
    rw [v0, v1] at e1
    unfold genLoop
    rw [e1, e2, hb3]
    simp only []
    rw [ih]

/-- The value at a child of the root depends on little. -/
theorem valueAt_child {P P' : Prims} {key : VidpfKey} {n : Nat} {cw : CorWord} {cws : List CorWord} {c : Block}
    {cs : List Block} (d : Bool) (hcw : key.corWords = cw :: cws) (hcs : key.cs = c :: cs) {u : Block}
    (hd : Spec.child P' key.rootSeed d = Spec.child P key.rootSeed d)
    (hu : u = if key.keyIdx then vxor (Spec.child P key.rootSeed d) cw.seed else Spec.child P key.rootSeed d)
    (hc : (convert P' u n).word = (convert P u n).word) :
    Spec.valueAt P' key n [d] = Spec.valueAt P key n [d] := by
  have hi : ∀ Q : Prims, Spec.valueAt Q key n [d]
      = some (evalBitPure Q key.keyIdx cw c key.evalInit d (Spec.pathString [d]) n).2 := by
    intro Q
    have h := evalBit_eq (P := Q) (key := key) (state := key.evalInit) (cw := cw) (c := c) (by rw [hcw]; rfl)
      (by rw [hcs]; rfl) d (Spec.pathString [d]) n
    simp only [Spec.valueAt, Spec.evalPath, Spec.walk, List.nil_append, h, ok_bind]
  have hb : key.evalInit.bit = key.keyIdx := rfl
  have hs : key.evalInit.seed = key.rootSeed := rfl
  rw [hi, hi]
  simp only [evalBitPure, hb, hs, expand_seeds, hd]
  rw [← hu, hc]

/-! ### Given values -/

/-- A cipher with given value entries for the other server on the path of a client, and as `P` on everything else that
the client's keys use. -/
structure GivesValues (P Q : Prims) (rs : Block × Block) (alpha : List Bool) (own : Bool) (n : Nat)
    (w : Fin (Spec.clientPath P rs alpha).length × Fin (n + 1) → Field128) : Prop where
  arch : Q.arch = P.arch
  used : ∀ c, Spec.UsedInput P rs alpha own n c → Q.aes c = P.aes c
  value : ∀ q, Q.aes (Spec.valueInput P (Spec.clientPath P rs alpha) (!own) n q)
    = vxor (Block.ofList (encodeField (w q))) (Spec.valueInput P (Spec.clientPath P rs alpha) (!own) n q)

section Gives

variable {P Q Q' : Prims} {rs : Block × Block} {alpha : List Bool} {own : Bool} {n : Nat}
  {w : Fin (Spec.clientPath P rs alpha).length × Fin (n + 1) → Field128}

theorem GivesValues.word (h : GivesValues P Q rs alpha own n w) (l : Fin (Spec.clientPath P rs alpha).length) :
    (convert Q (Pair.get (Spec.clientPath P rs alpha)[l].2 (!own)) n).word
      = List.ofFn fun i : Fin (n + 1) => w (l, i) := by
  refine List.ext_getElem (by simp [convert]) fun i h1 h2 => ?_
  have hi : i < n + 1 := by simpa [convert] using h1
  have hk : ksBlock Q (Pair.get (Spec.clientPath P rs alpha)[l].2 (!own)) (i + 1)
      = Block.ofList (encodeField (w (l, ⟨i, hi⟩))) := by
    have e : Spec.cipherInput Q (Pair.get (Spec.clientPath P rs alpha)[l].2 (!own)) (i + 1)
        = Spec.valueInput P (Spec.clientPath P rs alpha) (!own) n (l, ⟨i, hi⟩) := by
      unfold Spec.cipherInput; rw [h.arch]; rfl
    rw [ksBlock_eq, e, h.value, vxor_cancel_right]
  simp only [convert, List.getElem_map, List.getElem_range, List.getElem_ofFn]
  rw [hk, Block.toList_ofList (by simp [encodeField]), leNat_encodeField, ZMod.natCast_zmod_val]

theorem GivesValues.conv (h : GivesValues P Q rs alpha own n w) {s : Block}
    (hs : ∀ j < n + 2, Spec.UsedInput P rs alpha own n (Spec.cipherInput P s j)) :
    (convert Q s n).word = (convert P s n).word := by
  refine List.map_congr_left fun i hi => ?_
  have hi := List.mem_range.1 hi
  have : ksBlock Q s (i + 1) = ksBlock P s (i + 1) := by
    have e : Spec.cipherInput Q s (i + 1) = Spec.cipherInput P s (i + 1) := by
      unfold Spec.cipherInput; rw [h.arch]
    rw [ksBlock_eq, ksBlock_eq, e, h.used _ (hs _ (by omega))]
  rw [this]

/-- The entry by which the other server's values have to change. -/
def valueShift (own : Bool) (beta beta' : List Field128) (i : Nat) : Field128 :=
  if own then beta'.getD i 0 - beta.getD i 0 else beta.getD i 0 - beta'.getD i 0

def moveValues (own : Bool) (beta beta' : List Field128) {m n : Nat} (w : Fin m × Fin (n + 1) → Field128) :
    Fin m × Fin (n + 1) → Field128 := fun q => w q + valueShift own beta beta' q.2

theorem moveValues_back (own : Bool) (beta beta' : List Field128) {m n : Nat} (w : Fin m × Fin (n + 1) → Field128) :
    moveValues own beta' beta (moveValues own beta beta' w) = w := by
  funext q
  unfold moveValues valueShift
  cases own <;> simp only [Bool.false_eq_true, if_false, if_true] <;> ring

theorem getElem_vecAdd_vecSub {a b c : List Field128} {m : Nat} (ha : a.length = m) (hb : b.length = m) (hc : c.length = m)
    {i : Nat} (hi : i < m) (h : i < (vecAdd (vecSub a b) c).length) :
    (vecAdd (vecSub a b) c)[i] = a[i]'(by omega) - b[i]'(by omega) + c[i]'(by omega) := by
  rw [vecAdd_getElem (by simp; omega) (by omega), vecSub_getElem (by omega) (by omega)]

theorem genLoop_gives {beta beta' : List Field128} (h : GivesValues P Q rs alpha own n w)
    (h' : GivesValues P Q' rs alpha own n (moveValues own beta beta' w)) (hb3 : Q'.blake3 = Q.blake3)
    (hl : beta.length = n) (hl' : beta'.length = n) :
    genLoop Q' beta' alpha [] (false, true) rs = genLoop Q beta alpha [] (false, true) rs := by
  refine genLoop_same (Q := P) (P := Q) (P' := Q') h.arch h'.arch hb3 (hl'.trans hl.symm) alpha [] (false, true) rs
    fun e he => ⟨fun c hc => ?_, ?_⟩
  · have hu : Spec.UsedInput P rs alpha own n c := .inl ⟨e, he, .inl hc⟩
    exact ⟨h.used _ hu, h'.used _ hu⟩
  · obtain ⟨l, hlt, rfl⟩ := List.getElem_of_mem he
    have hlt' : l < (Spec.clientPath P rs alpha).length := hlt
    have h1 := h.word ⟨l, hlt'⟩
    have h1' := h'.word ⟨l, hlt'⟩
    have hu : ∀ j < n + 2, Spec.UsedInput P rs alpha own n
        (Spec.cipherInput P (Pair.get (Spec.clientPath P rs alpha)[l].2 own) j) :=
      fun j hj => .inl ⟨_, he, .inr ⟨j, hj, rfl⟩⟩
    have h2 := h.conv hu
    have h2' := h'.conv hu
    rw [hl]
    show vecAdd (vecSub (beta' ++ [1]) (convert _ (Spec.clientPath P rs alpha)[l].2.1 n).word)
      (convert _ (Spec.clientPath P rs alpha)[l].2.2 n).word = vecAdd (vecSub (beta ++ [1])
      (convert _ (Spec.clientPath P rs alpha)[l].2.1 n).word) (convert _ (Spec.clientPath P rs alpha)[l].2.2 n).word
    have hlen : ∀ (Q : Prims) (s : Block), (convert Q s n).word.length = n + 1 := fun Q s => by simp
    have key : ∀ i, i < n + 1 → (beta' ++ [1])[i]? = some ((beta' ++ [1]).getD i 0) := by
      intro i hi
      rw [List.getD_eq_getElem _ _ (by simp; omega), List.getElem?_eq_getElem]
    have hd : ∀ i, i < n + 1 → (beta' ++ [(1 : Field128)]).getD i 0 - (beta ++ [1]).getD i 0
        = beta'.getD i 0 - beta.getD i 0 := by
      intro i hi
      by_cases hin : i < n
      · rw [List.getD_append _ _ _ _ (by omega), List.getD_append _ _ _ _ (by omega)]
      · have : i = n := by omega
        subst this
        rw [List.getD_append_right _ _ _ _ (by omega), List.getD_append_right _ _ _ _ (by omega),
          List.getD_eq_default beta' _ (by omega), List.getD_eq_default beta _ (by omega), hl, hl']
        simp
    refine List.ext_getElem (by simp [hl, hl']) fun i g1 g2 => ?_
    have hi : i < n + 1 := by simpa [hl'] using g1
    rw [getElem_vecAdd_vecSub (m := n + 1) (by simp [hl']) (hlen _ _) (hlen _ _) hi,
      getElem_vecAdd_vecSub (m := n + 1) (by simp [hl]) (hlen _ _) (hlen _ _) hi]
    have hdi := hd i hi
    rw [List.getD_eq_getElem (beta' ++ [1]) _ (by simp; omega), List.getD_eq_getElem (beta ++ [1]) _ (by simp; omega)] at hdi
    cases own with
    | false =>
      have e1 : (convert Q (Spec.clientPath P rs alpha)[l].2.2 n).word
          = List.ofFn fun i : Fin (n + 1) => w (⟨l, hlt'⟩, i) := h1
      have e1' : (convert Q' (Spec.clientPath P rs alpha)[l].2.2 n).word
          = List.ofFn fun i : Fin (n + 1) => moveValues false beta beta' w (⟨l, hlt'⟩, i) := h1'
      have e2 : (convert Q (Spec.clientPath P rs alpha)[l].2.1 n).word
          = (convert P (Spec.clientPath P rs alpha)[l].2.1 n).word := h2
      have e2' : (convert Q' (Spec.clientPath P rs alpha)[l].2.1 n).word
          = (convert P (Spec.clientPath P rs alpha)[l].2.1 n).word := h2'
      simp only [e1, e2, e1', e2', List.getElem_ofFn, moveValues, valueShift, Bool.false_eq_true, if_false]
      linear_combination hdi
    | true =>
      have e1 : (convert Q (Spec.clientPath P rs alpha)[l].2.1 n).word
          = List.ofFn fun i : Fin (n + 1) => w (⟨l, hlt'⟩, i) := h1
      have e1' : (convert Q' (Spec.clientPath P rs alpha)[l].2.1 n).word
          = List.ofFn fun i : Fin (n + 1) => moveValues true beta beta' w (⟨l, hlt'⟩, i) := h1'
      have e2 : (convert Q (Spec.clientPath P rs alpha)[l].2.2 n).word
          = (convert P (Spec.clientPath P rs alpha)[l].2.2 n).word := h2
      have e2' : (convert Q' (Spec.clientPath P rs alpha)[l].2.2 n).word
          = (convert P (Spec.clientPath P rs alpha)[l].2.2 n).word := h2'
      simp only [e1, e2, e1', e2', List.getElem_ofFn, moveValues, valueShift, if_true]
      linear_combination hdi

end Gives

section Values

variable {P : Prims} {rs : Block × Block} {alpha : List Bool} {own : Bool} {n : Nat}
  (hf : Spec.FreshValues P rs alpha own n) (w : Fin (Spec.clientPath P rs alpha).length × Fin (n + 1) → Field128)

include hf in
theorem setValues_gives : GivesValues P (Spec.setValues P rs alpha (!own) n w) rs alpha own n w where
  arch := rfl
  used := by
    intro c hc
    have h : ¬∃ q, Spec.valueInput P (Spec.clientPath P rs alpha) (!own) n q = c := by
      rintro ⟨q, rfl⟩
      exact hf.2 q hc
    exact Function.extend_apply' (fun q => vxor (Block.ofList (encodeField (w q)))
      (Spec.valueInput P (Spec.clientPath P rs alpha) (!own) n q)) P.aes c h
  value := hf.1.extend_apply (fun q => vxor (Block.ofList (encodeField (w q)))
    (Spec.valueInput P (Spec.clientPath P rs alpha) (!own) n q)) P.aes

include hf in
theorem genLoop_moved {beta beta' : List Field128} (hl : beta.length = n) (hl' : beta'.length = n) :
    genLoop (Spec.setValues P rs alpha (!own) n (moveValues own beta beta' w)) beta' alpha [] (false, true) rs
      = genLoop (Spec.setValues P rs alpha (!own) n w) beta alpha [] (false, true) rs :=
  genLoop_gives (setValues_gives hf w) (setValues_gives hf _) rfl hl hl'

include hf in
theorem root_child {a : Bool} {as : List Bool} (ha : alpha = a :: as) (d : Bool) :
    Spec.child (Spec.setValues P rs alpha (!own) n w) rs.1 d = Spec.child P rs.1 d ∧
      Spec.child (Spec.setValues P rs alpha (!own) n w) rs.2 d = Spec.child P rs.2 d := by
  subst ha
  have hroot : ∃ u rest, Spec.clientPath P rs (a :: as) = (rs, u) :: rest := ⟨_, _, rfl⟩
  obtain ⟨u, rest, hp⟩ := hroot
  have he : (rs, u) ∈ Spec.clientPath P rs (a :: as) := by rw [hp]; exact List.mem_cons_self ..
  have hin : ∀ c ∈ [maskKey rs.1, incBe P.arch (maskKey rs.1), maskKey rs.2, incBe P.arch (maskKey rs.2), u.1, u.2],
      (Spec.setValues P rs (a :: as) (!own) n w).aes c = P.aes c :=
    fun c hc => (setValues_gives hf w).used _ (.inl ⟨_, he, .inl hc⟩)
  simp only [List.mem_cons, List.not_mem_nil, or_false] at hin
  exact ⟨child_congr (P := P) (P' := Spec.setValues P rs (a :: as) (!own) n w) (s := rs.1) rfl (hin _ (.inl rfl))
      (hin _ (.inr (.inl rfl))) d, child_congr (P := P) (P' := Spec.setValues P rs (a :: as) (!own) n w) (s := rs.2) rfl
      (hin _ (.inr (.inr (.inl rfl)))) (hin _ (.inr (.inr (.inr (.inl rfl))))) d⟩

include hf in
/-- The own values at the children of the root do not depend on the other server's values on the path. -/
theorem own_value {a : Bool} {as : List Bool} (ha : alpha = a :: as) {key : VidpfKey} (hk : key.keyIdx = own)
    (hr : key.rootSeed = Pair.get rs own) {cw : CorWord} {cws : List CorWord} {c : Block} {cs : List Block}
    (hcw : key.corWords = cw :: cws) (hcs : key.cs = c :: cs)
    (hs : cw.seed = vxor (Spec.child P rs.1 (!a)) (Spec.child P rs.2 (!a))) (d : Bool) :
    Spec.valueAt (Spec.setValues P rs alpha (!own) n w) key n [d] = Spec.valueAt P key n [d] := by
  subst ha
  have hroot : ∃ u rest, Spec.clientPath P rs (a :: as) = (rs, u) :: rest ∧ u = (Spec.child P rs.1 a,
      vxor (Spec.child P rs.2 a) (vxor (Spec.child P rs.1 (!a)) (Spec.child P rs.2 (!a)))) := ⟨_, _, rfl, rfl⟩
  obtain ⟨u, rest, hp, hu⟩ := hroot
  have he : (rs, u) ∈ Spec.clientPath P rs (a :: as) := by rw [hp]; exact List.mem_cons_self ..
  have k0 := fun d => (root_child hf w rfl d).1
  have k1 := fun d => (root_child hf w rfl d).2
  have hsib := (setValues_gives hf w).conv (s := Spec.child P rs.1 (!a)) fun j hj => .inr ⟨j, hj, rfl⟩
  have hon := (setValues_gives hf w).conv (s := Pair.get u own) fun j hj => .inl ⟨_, he, .inr ⟨j, hj, rfl⟩⟩
  refine valueAt_child d hcw hcs ?_ rfl ?_
  · rw [hr]; cases own
    · exact k0 d
    · exact k1 d
  · rw [hk, hr, hs]
    have hd : d = a ∨ d = !a := by cases d <;> cases a <;> simp
    cases own with
    | false =>
      simp only [Bool.false_eq_true, if_false]
      rcases hd with rfl | rfl
      · rw [hu] at hon; exact hon
      · exact hsib
    | true =>
      simp only [if_true]
      rcases hd with rfl | rfl
      · rw [hu] at hon; exact hon
      · have e : vxor (Spec.child P rs.2 (!a)) (vxor (Spec.child P rs.1 (!a)) (Spec.child P rs.2 (!a)))
            = Spec.child P rs.1 (!a) := by
          rw [vxor_comm (Spec.child P rs.1 (!a)), vxor_cancel_left]
        show (convert _ (vxor (Spec.child P rs.2 (!a)) _) n).word = (convert P (vxor (Spec.child P rs.2 (!a)) _) n).word
        rw [e]
        exact hsib

/-- The first correction word of a client's keys. -/
theorem gen_first {Q : Prims} {a : Bool} {as : List Bool} {beta : List Field128} :
    ∃ cw cws c cs, genLoop Q beta (a :: as) [] (false, true) rs = (cw :: cws, c :: cs) ∧
      cw.seed = vxor (Spec.child Q rs.1 (!a)) (Spec.child Q rs.2 (!a)) := by
  refine ⟨_, _, _, _, rfl, ?_⟩
  rw [genCorWord_path Q a beta (false, true) rs rfl rfl]

end Values

/-! ### The same randomness for two weights -/

theorem word_diff {beta beta' c0 c1 : List Field128} (hl : beta'.length = beta.length) (h0 : c0.length = beta.length + 1)
    (h1 : c1.length = beta.length + 1) (neg : Bool) :
    List.zipWith (· - ·)
        (if neg then vecNeg (vecAdd (vecSub (beta' ++ [1]) c0) c1) else vecAdd (vecSub (beta' ++ [1]) c0) c1)
        (if neg then vecNeg (vecAdd (vecSub (beta ++ [1]) c0) c1) else vecAdd (vecSub (beta ++ [1]) c0) c1)
      = (if neg then List.zipWith (· - ·) beta beta' else List.zipWith (· - ·) beta' beta) ++ [0] := by
  have hlen : ∀ b : List Field128, b.length = beta.length → (vecAdd (vecSub (b ++ [1]) c0) c1).length = beta.length + 1 :=
    fun b hb => by simp [hb, h0, h1]
  refine List.ext_getElem (by cases neg <;> simp [hl, h0, h1]) fun i g1 g2 => ?_
  have hi : i < beta.length + 1 := by cases neg <;> simpa [hl] using g2
  have e := fun (b : List Field128) (hb : b.length = beta.length) =>
    getElem_vecAdd_vecSub (m := beta.length + 1) (a := b ++ [1]) (b := c0) (c := c1) (by simp [hb]) h0 h1 hi
      (by rw [hlen b hb]; exact hi)
  have e1 := e beta rfl
  have e2 := e beta' hl
  by_cases hb : i < beta.length
  · rw [List.getElem_append_left hb] at e1
    rw [List.getElem_append_left (by omega)] at e2
    cases neg
    · simp only [Bool.false_eq_true, if_false, List.getElem_zipWith, e1, e2]
      rw [List.getElem_append_left (by simp [hl, hb]), List.getElem_zipWith]
      ring
    · simp only [if_true, List.getElem_zipWith, vecNeg, List.getElem_map, e1, e2]
      rw [List.getElem_append_left (by simp [hl, hb]), List.getElem_zipWith]
      ring
  · have : i = beta.length := by omega
    subst this
    rw [List.getElem_append_right (by omega)] at e1
    rw [List.getElem_append_right (by omega)] at e2
    cases neg
    · simp only [Bool.false_eq_true, if_false, List.getElem_zipWith, e1, e2]
      rw [List.getElem_append_right (by simp [hl])]
      simp
    · simp only [if_true, List.getElem_zipWith, vecNeg, List.getElem_map, e1, e2]
      rw [List.getElem_append_right (by simp [hl])]
      simp

theorem genLoop_reuse {P : Prims} {beta beta' : List Field128} (hl : beta'.length = beta.length) :
    ∀ (alpha done : List Bool) (t : Bool × Bool) (s : Block × Block),
    (genLoop P beta' alpha done t s).2 = (genLoop P beta alpha done t s).2 ∧
    (genLoop P beta alpha done t s).1.length = alpha.length ∧ (genLoop P beta' alpha done t s).1.length = alpha.length ∧
    ∀ (l : Nat) (cw cw' : CorWord), (genLoop P beta alpha done t s).1[l]? = some cw →
      (genLoop P beta' alpha done t s).1[l]? = some cw' →
      cw'.seed = cw.seed ∧ cw'.bits = cw.bits ∧
        List.zipWith (· - ·) cw'.word cw.word = (if decide (l % 2 = 0) = t.2 then List.zipWith (· - ·) beta' beta
          else List.zipWith (· - ·) beta beta') ++ [0]
  | [], _, _, _ => ⟨rfl, rfl, rfl, fun l cw cw' h => by simp [genLoop] at h⟩
  | bit :: rest, done, t, s => by
    have e1 := genCorWord_path P bit beta t s rfl rfl
    have e2 := genCorWord_path P bit beta' t s rfl rfl
    obtain ⟨i1, i2, i3, i4⟩ := genLoop_reuse (P := P) hl rest (done ++ [bit]) (genCorWord P bit beta t s).bits
      (genCorWord P bit beta t s).seeds
    have eb : (genCorWord P bit beta' t s).bits = (genCorWord P bit beta t s).bits := by rw [e1, e2]
    have es : (genCorWord P bit beta' t s).seeds = (genCorWord P bit beta t s).seeds := by rw [e1, e2]
    have et : (genCorWord P bit beta t s).bits.2 = !t.2 := by rw [e1]
    unfold genLoop
    simp only [eb, es, i1, List.length_cons, i2, i3, true_and]
    intro l cw cw' h h'
    cases l with
    | zero =>
      simp only [List.getElem?_cons_zero, Option.some.injEq] at h h'
      subst h h'
      rw [e1, e2, hl]
      refine ⟨rfl, rfl, ?_⟩
      simp only []
      rw [word_diff hl (by simp) (by simp)]
      cases t.2 <;> simp
    | succ l =>
      rw [List.getElem?_cons_succ] at h h'
      obtain ⟨a, b, c⟩ := i4 l cw cw' h h'
      refine ⟨a, b, ?_⟩
      rw [c, et]
      congr 2
      rcases Nat.mod_two_eq_zero_or_one l with h | h
      · have : (l + 1) % 2 = 1 := by omega
        rw [h, this]; cases t.2 <;> simp
      · have : (l + 1) % 2 = 0 := by omega
        rw [h, this]; cases t.2 <;> simp

end Mastic
