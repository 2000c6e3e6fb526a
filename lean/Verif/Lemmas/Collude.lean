import Verif.Spec.Collude
import Verif.Props.RunHide

/-!
# Lemmas: what one server and the collector see together
-/

namespace Mastic

variable {P Q Q' : Prims}

/-! ### The evaluations of the server -/

theorem cipherInput_arch (ha : Q.arch = P.arch) (s : Block) (i : Nat) :
    Spec.cipherInput Q s i = Spec.cipherInput P s i := by
  unfold Spec.cipherInput; rw [ha]

theorem ksBlock_congr (ha : Q.arch = P.arch) {s : Block} {i : Nat}
    (h : Q.aes (Spec.cipherInput P s i) = P.aes (Spec.cipherInput P s i)) : ksBlock Q s i = ksBlock P s i := by
  rw [ksBlock_eq, ksBlock_eq, cipherInput_arch ha, h]

theorem convert_congr (ha : Q.arch = P.arch) {u : Block} {n : Nat}
    (h : ∀ j < n + 2, Q.aes (Spec.cipherInput P u j) = P.aes (Spec.cipherInput P u j)) :
    convert Q u n = convert P u n := by
  unfold convert
  rw [ksBlock_congr ha (h 0 (by omega))]
  congr 1
  refine List.map_congr_left fun i hi => ?_
  rw [ksBlock_congr ha (h (i + 1) (by have := List.mem_range.1 hi; omega))]

/-- Two ciphers that agree on the inputs of an evaluation give the same evaluation. -/
theorem walk_congr (ha : Q.arch = P.arch) (hb : Q.blake3 = P.blake3) {key : VidpfKey} {n : Nat}
    (hcs : key.cs.length = key.corWords.length) : ∀ (bits done : List Bool) (st : EvalState) (w : Option (List Field128)),
    st.level + bits.length ≤ key.corWords.length →
    (∀ c ∈ Spec.evalInputs P n ((key.corWords.drop st.level).map fun cw => (cw.seed, cw.bits)) bits st.bit st.seed,
      Q.aes c = P.aes c) →
    Spec.walk Q key n done st w bits = Spec.walk P key n done st w bits
  | [], _, _, _, _, _ => rfl
  | b :: bits, done, st, w, hl, h => by
    have hlt : st.level < key.corWords.length := by simp at hl; omega
    have hw := List.getElem?_eq_getElem hlt
    have hc : key.cs[st.level]? = some (key.cs[st.level]'(by omega)) := List.getElem?_eq_getElem _
    rw [List.drop_eq_getElem_cons hlt, List.map_cons, Spec.evalInputs] at h
    simp only [List.cons_append, List.mem_cons, List.mem_append, List.mem_map, List.mem_range] at h
    have h1 := h _ (.inl rfl)
    have hch : Spec.child Q st.seed b = Spec.child P st.seed b := by
      unfold Spec.child
      simp only [cipherInput_arch ha, h1]
    obtain ⟨u, hu⟩ : ∃ u, u = if st.bit then vxor (Spec.child P st.seed b) (key.corWords[st.level]).seed
      else Spec.child P st.seed b := ⟨_, rfl⟩
    rw [← hu] at h
    have hconv : convert Q u n = convert P u n :=
      convert_congr ha fun j hj => h _ (.inr (.inl ⟨j, hj, rfl⟩))
    have he : evalBitPure Q key.keyIdx (key.corWords[st.level]) (key.cs[st.level]'(by omega)) st b
        (Spec.pathString (done ++ [b])) n
        = evalBitPure P key.keyIdx (key.corWords[st.level]) (key.cs[st.level]'(by omega)) st b
          (Spec.pathString (done ++ [b])) n := by
      unfold evalBitPure
      simp only [expand_seeds, hch, ← hu, hconv, hb]
    rw [Spec.walk, Spec.walk, evalBit_eq hw hc, evalBit_eq hw hc, ok_bind, ok_bind, he]
    refine walk_congr ha hb hcs bits _ _ _ (by simp [evalBitPure] at hl ⊢; omega) fun c hcm => ?_
    refine h c (.inr (.inr ?_))
    have e2 : (evalBitPure P key.keyIdx (key.corWords[st.level]) (key.cs[st.level]'(by omega)) st b
          (Spec.pathString (done ++ [b])) n).1.seed = vxor (P.aes u) u := by
      unfold evalBitPure
      simp only [expand_seeds, ← hu]
      rfl
    rw [e2] at hcm
    exact hcm

theorem evalPath_congr (ha : Q.arch = P.arch) (hb : Q.blake3 = P.blake3) {key : VidpfKey} {n : Nat}
    (hcs : key.cs.length = key.corWords.length) {p : List Bool} (hl : p.length ≤ key.corWords.length)
    (h : ∀ c ∈ Spec.evalInputs P n (key.corWords.map fun cw => (cw.seed, cw.bits)) p key.keyIdx key.rootSeed,
      Q.aes c = P.aes c) :
    Spec.evalPath Q key n p = Spec.evalPath P key n p :=
  walk_congr ha hb hcs p [] key.evalInit none (by simpa [VidpfKey.evalInit] using hl) h

/-! ### Seeds and control bits of the correction words -/

theorem genLoop_seedWords (ha : Q.arch = P.arch) {beta beta' : List Field128} :
    ∀ (alpha done : List Bool) (t : Bool × Bool) (s : Block × Block),
    (∀ e ∈ Spec.genPath P alpha t s, ∀ c ∈ [maskKey e.1.1, incBe P.arch (maskKey e.1.1), maskKey e.1.2,
      incBe P.arch (maskKey e.1.2), e.2.1, e.2.2], Q.aes c = P.aes c) →
    (genLoop Q beta alpha done t s).1.map (fun cw => (cw.seed, cw.bits))
      = (genLoop P beta' alpha done t s).1.map (fun cw => (cw.seed, cw.bits))
  | [], _, _, _, _ => rfl
  | bit :: rest, done, t, s, h => by
    rw [Spec.genPath] at h
    have hc := h _ (List.mem_cons_self ..)
    have hr := fun e he => h e (List.mem_cons_of_mem _ he)
    simp only [List.mem_cons, List.not_mem_nil, or_false] at hc
    have d0 := child_congr ha (hc _ (.inl rfl)) (hc _ (.inr (.inl rfl)))
    have d1 := child_congr ha (hc _ (.inr (.inr (.inl rfl)))) (hc _ (.inr (.inr (.inr (.inl rfl)))))
    have v0 := hc _ (.inr (.inr (.inr (.inr (.inl rfl)))))
    have v1 := hc _ (.inr (.inr (.inr (.inr (.inr rfl)))))
    have ih := genLoop_seedWords ha (beta := beta) (beta' := beta') rest (done ++ [bit]) _ _ hr
    have e1 := genCorWord_path Q bit beta t s rfl rfl
    have e2 := genCorWord_path P bit beta' t s rfl rfl
    rw [d0, d0, d1, d1] at e1
    simp only [] at e1
    rw [v0, v1] at e1
    unfold genLoop
    rw [e1, e2]
    simp only [List.map_cons]
    rw [ih]

section Run

variable {u n d : Nat} {draw : MainDraw} {own : Bool} {paths : List (List Bool)}

/-- What the server `own` gets from its key at the given strings does not depend on the other server's values. -/
theorem own_evalPath (hf : Spec.FreshRun P u n d draw own) (he : Spec.FreshEvals P u n d draw own paths)
    (w w' : Spec.RunCoins P u n d draw) (i : Fin u) {beta : List Field128} {p : List Bool} (hp : p ∈ paths)
    (hl : p.length ≤ d) (hQ : Q = Spec.setRun P u n d draw (!own) w) (hQ' : Q' = Spec.setRun P u n d draw (!own) w') :
    Spec.evalPath Q' (Pair.get (VidpfKey.gen Q (draw.reports i).rand.rootSeeds (Spec.stringOf d (draw.reports i)) beta)
        own) n p
      = Spec.evalPath Q (Pair.get (VidpfKey.gen Q (draw.reports i).rand.rootSeeds
          (Spec.stringOf d (draw.reports i)) beta) own) n p := by
  obtain ⟨key, hkey⟩ : ∃ key, key = Pair.get (VidpfKey.gen Q (draw.reports i).rand.rootSeeds
    (Spec.stringOf d (draw.reports i)) beta) own := ⟨_, rfl⟩
  rw [← hkey]
  have hg := setRun_gives hf w i
  have hsw : key.corWords.map (fun cw => (cw.seed, cw.bits))
      = Spec.seedWords P (draw.reports i).rand.rootSeeds (Spec.stringOf d (draw.reports i)) n := by
    have := genLoop_seedWords (P := P) (Q := Q) (by rw [hQ]; rfl) (beta := beta) (beta' := List.replicate n 0)
      (Spec.stringOf d (draw.reports i)) [] (false, true) (draw.reports i).rand.rootSeeds (fun e hem c hc => by
        rw [hQ]; exact hg.used c (.inl ⟨e, hem, .inl hc⟩))
    rw [hkey]
    cases own <;> exact this
  have hidx : key.keyIdx = own := by rw [hkey]; cases own <;> rfl
  have hroot : key.rootSeed = Pair.get (draw.reports i).rand.rootSeeds own := by rw [hkey]; cases own <;> rfl
  obtain ⟨g1, g2⟩ := gen_lengths Q (draw.reports i).rand.rootSeeds (Spec.stringOf d (draw.reports i)) beta own
  rw [← hkey] at g1 g2
  have hsl : (Spec.stringOf d (draw.reports i)).length = d := by simp [Spec.stringOf]
  have key' : ∀ (w : Spec.RunCoins P u n d draw) (R : Prims), R = Spec.setRun P u n d draw (!own) w →
      Spec.evalPath R key n p = Spec.evalPath P key n p := by
    intro w R hR
    refine evalPath_congr (by rw [hR]; rfl) (by rw [hR]; rfl) (by rw [g1, g2]) (by rw [g1, hsl]; exact hl) fun c hc => ?_
    rw [hsw, hidx, hroot] at hc
    rw [hR]
    refine setRun_other w ?_
    rintro ⟨q, rfl⟩
    exact he q i p hp hc
  rw [key' w' Q' hQ', key' w Q hQ]

end Run

end Mastic
