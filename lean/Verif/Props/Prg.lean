import Verif.Lemmas.Prg
import Verif.Lemmas.Toy
import Mathlib.Tactic.FinCases

/-!
# Properties of the PRG: C09 - C12, C14
-/

namespace Mastic

/-! ## C09: history independence and direction consistency -/

/-- C09. Whatever the thread's stream was used for before (`s` is an arbitrary stream with its
128-byte buffer), in either build, `expand_dir` returns keystream block 0 / block 1 of the masked
seed for the requested directions, zero for the others, and the bits `(true, true)`. -/
theorem C09_expand_dir_history_independent (P : Prims) (bld : Build) (s : Stream)
    (h : s.buf.length = 128) (key : Block) (left right : Bool) :
    ∃ s', expandDirST P bld s key left right = .ok
        ({ bits := (true, true)
           seeds := (if left then Block.ofList (Spec.keystreamBlock P (Spec.seedCounter key) 0) else Block.zero,
             if right then Block.ofList (Spec.keystreamBlock P (Spec.seedCounter key) 1) else Block.zero) },
          s') ∧
      s'.buf.length = 128 := by
  obtain ⟨s', h1, h2⟩ := expandDirST_at P bld s h key left right
  refine ⟨s', ?_, h2⟩
  rw [h1]
  unfold expandDir
  simp only [prgBits_maskKey]
  simp only [maskKey_eq_seedCounter, ← ksBlock_toList, Block.ofList_toList]

/-- C09. `convert` returns block 0 of the seed's keystream and then one field element per block,
whatever the stream was used for before. -/
theorem C09_convert_history_independent (P : Prims) (bld : Build) (s : Stream)
    (h : s.buf.length = 128) (key : Block) (n : Nat) :
    ∃ s', convertST P bld s key n = .ok
        ({ seed := Block.ofList (Spec.keystreamBlock P key 0)
           word := (List.range (n + 1)).map fun i =>
             ((leNat (Spec.keystreamBlock P key (i + 1)) : Nat) : Field128) }, s') ∧
      s'.buf.length = 128 := by
  obtain ⟨s', h1, h2⟩ := convertST_at P bld s h key n
  refine ⟨s', ?_, h2⟩
  rw [h1]
  unfold convert
  simp only [← ksBlock_toList, Block.ofList_toList]

/-- C09. A seed asked for in one direction is the seed `expand` gives for that direction, from any
two earlier streams and in any builds. -/
theorem C09_direction_consistent (P : Prims) (bld bld' : Build) (s s' : Stream)
    (h : s.buf.length = 128) (h' : s'.buf.length = 128) (key : Block) (left right : Bool) :
    ∃ o o' t t', expandDirST P bld s key left right = .ok (o, t) ∧
      expandDirST P bld' s' key true true = .ok (o', t') ∧
      (left = true → o.seeds.1 = o'.seeds.1) ∧ (right = true → o.seeds.2 = o'.seeds.2) ∧
      o.bits = o'.bits := by
  obtain ⟨t, h1, -⟩ := expandDirST_at P bld s h key left right
  obtain ⟨t', h2, -⟩ := expandDirST_at P bld' s' h' key true true
  refine ⟨_, _, t, t', h1, h2, ?_, ?_, rfl⟩
  · intro hl; subst hl; rfl
  · intro hr; subst hr; rfl

/-- the hypothesis holds for the thread's initial stream -/
example : Stream.new.buf.length = 128 := by simp [Stream.new]

/-! ## C10: chunk independence -/

/-- A sequence of `fill_bytes` requests. -/
def fillSeq (P : Prims) (bld : Build) : Stream → List Nat → Exec (List (List Byte))
  | _, [] => .ok []
  | s, n :: ns => do
    let (bs, s') ← s.fillBytes P bld n
    let rest ← fillSeq P bld s' ns
    .ok (bs :: rest)

/-- Consecutive pieces of the specified keystream, of the given sizes, starting at `pos`. -/
def Spec.pieces (P : Prims) (key : Block) : Nat → List Nat → List (List Byte)
  | _, [] => []
  | pos, n :: ns => Spec.keystreamSlice P key pos n :: Spec.pieces P key (pos + n) ns

theorem fillSeq_at {P : Prims} {key : Block} (reqs : List Nat) :
    ∀ (pos : Nat) (s : Stream), StreamAt P key pos s →
      fillSeq P .release s reqs = .ok (Spec.pieces P key pos reqs) := by
  induction reqs with
  | nil => intro pos s _; rfl
  | cons n ns ih =>
    intro pos s hs
    obtain ⟨s', h1, h2, -⟩ := fillBytes_at .release n hs (fun h => nomatch h)
    rw [fillSeq, h1]
    simp only [ok_bind]
    rw [ih _ _ h2]
    simp only [ok_bind, Spec.pieces, keystreamSlice_eq]

/-- C10. After `set_key`, any sequence of requests returns consecutive pieces of one keystream. -/
theorem C10_chunk_independent (P : Prims) (s : Stream) (h : s.buf.length = 128) (key : Block)
    (reqs : List Nat) :
    fillSeq P .release (s.setKey key) reqs = .ok (Spec.pieces P key 0 reqs) :=
  fillSeq_at reqs 0 _ (streamAt_setKey P key s h)

theorem Spec.pieces_flatten (P : Prims) (key : Block) (reqs : List Nat) (pos : Nat) :
    (Spec.pieces P key pos reqs).flatten = Spec.keystreamSlice P key pos reqs.sum := by
  induction reqs generalizing pos with
  | nil => simp [Spec.pieces, Spec.keystreamSlice]
  | cons n ns ih =>
    rw [Spec.pieces, List.flatten_cons, ih, List.sum_cons]
    simp only [keystreamSlice_eq, ksBytes_append]

/-- C10. Two request sequences of the same total size return the same bytes. -/
theorem C10_total_only (P : Prims) (s s' : Stream) (h : s.buf.length = 128)
    (h' : s'.buf.length = 128) (key : Block) (reqs reqs' : List Nat) (hs : reqs.sum = reqs'.sum) :
    ∃ a b, fillSeq P .release (s.setKey key) reqs = .ok a ∧
      fillSeq P .release (s'.setKey key) reqs' = .ok b ∧ a.flatten = b.flatten :=
  ⟨_, _, C10_chunk_independent P s h key reqs, C10_chunk_independent P s' h' key reqs',
    by rw [Spec.pieces_flatten, Spec.pieces_flatten, hs]⟩

/-- mixing one-block and eight-block refills -/
example : ([7, 200, 0, 30] : List Nat).sum = ([237] : List Nat).sum := by decide

/-- The block index of a keystream byte: byte `16 i + j` is byte `j` of block `i`. -/
theorem C10_keystream_layout (P : Prims) (key : Block) (i : Nat) :
    Spec.keystreamSlice P key (16 * i) 16 = Spec.keystreamBlock P key i := by
  rw [keystreamSlice_eq, ksBytes_block, ksBlock_toList]

/-! ## C11: debug assertions -/

/-- C11. In debug builds `expand_dir` never panics, from any stream. -/
theorem C11_expand_dir_no_assertion (P : Prims) (s : Stream) (h : s.buf.length = 128) (key : Block)
    (left right : Bool) : Returns (expandDirST P .debug s key left right) := by
  obtain ⟨s', h1, -⟩ := expandDirST_at P .debug s h key left right
  exact ⟨_, h1⟩

/-- C11. In debug builds `convert` never panics, from any stream and for any number of words. -/
theorem C11_convert_no_assertion (P : Prims) (s : Stream) (h : s.buf.length = 128) (key : Block)
    (n : Nat) : Returns (convertST P .debug s key n) := by
  obtain ⟨s', h1, -⟩ := convertST_at P .debug s h key n
  exact ⟨_, h1⟩

/-- C11 (negative part). A stream whose buffer is used up and was not filled by the one-block refill
panics in a debug build on every short request. -/
theorem C11_drained_buffer_panics (P : Prims) (s : Stream) (hp : s.bufPtr = s.have_)
    (h16 : s.have_ ≠ 16) (n : Nat) (h0 : 0 < n) (h64 : n ≤ 64) :
    s.fillBytes P .debug n = .error .debugAssertion := by
  obtain ⟨m, rfl⟩ : ∃ m, n = m + 1 := ⟨n - 1, by omega⟩
  unfold Stream.fillBytes
  rw [Stream.fillLoop, if_pos hp, if_neg (by omega)]
  have : s.refill P .debug = .error .debugAssertion := by
    unfold Stream.refill
    have : (s.bufPtr == 16) = false := by rw [hp]; simpa using h16
    rw [this]; rfl
  rw [this]; rfl

/-- C11 (negative part). From a freshly keyed stream, a request for a multiple of 128 bytes (at least
one) followed by any short request panics in a debug build and not in a release build. -/
theorem C11_long_then_short_panics (P : Prims) (s : Stream) (h : s.buf.length = 128) (key : Block)
    (k n : Nat) (h0 : 0 < n) (h64 : n ≤ 64) :
    fillSeq P .debug (s.setKey key) [128 * (k + 1), n] = .error .debugAssertion ∧
      Returns (fillSeq P .release (s.setKey key) [128 * (k + 1), n]) := by
  refine ⟨?_, _, C10_chunk_independent P s h key _⟩
  obtain ⟨bs, s', e, e1, e2⟩ := fill_drains P .debug key s k
  rw [fillSeq, e]
  simp only [ok_bind]
  rw [fillSeq, C11_drained_buffer_panics P s' e1 (by rw [e2]; decide) n h0 h64]
  rfl

/-- A drained stream: 128 bytes were requested from a fresh one. -/
example : ((Stream.new.setKey Block.zero).fillBytes toy .debug 128).map (fun r => (r.2.bufPtr == r.2.have_, r.2.have_))
    = .ok (true, 128) := by decide +kernel

/-! ## C12: platform dependence -/

/-- C12 is false: the counter increments of the two architectures differ on every counter value. -/
theorem C12_false_counters_differ (c : Block) : incBe .x86_64 c ≠ incBe .other c := by
  intro he
  have h1 := incBe_toList .x86_64 c
  have h2 := incBe_toList .other c
  rw [he] at h1
  rw [h1] at h2
  have h3 := congrArg (fun l => l.drop 8) h2
  simp only [Spec.counter] at h3
  rw [List.drop_left' (by simp), List.drop_left' (by simp)] at h3
  have h4 := congrArg leNat h3
  rw [leNat_natLE] at h4
  have h5 := leNat_lt (c.toList.drop 8)
  simp only [List.length_drop, Vector.length_toList] at h5
  norm_num at h4 h5
  omega

/-- C12 is false: for every cipher that makes the keystream block injective in its counter, the right
child of *every* seed differs between the two architectures. -/
theorem C12_false_right_child_differs (P : Prims) (key : Block)
    (hinj : Function.Injective fun c => vxor (P.aes c) c) :
    (expand { P with arch := .x86_64 } key).seeds.2
      ≠ (expand { P with arch := .other } key).seeds.2 :=
  fun he => C12_false_counters_differ (maskKey key) (hinj he)

/-- such a cipher exists -/
example : Function.Injective fun c : Block => vxor Block.zero c :=
  fun _ _ h => vxor_left_inj.1 h

/-- C12, what does hold: left children and control bits do not depend on the architecture. -/
theorem C12_left_child_partial (P : Prims) (key : Block) (a a' : Arch) :
    (expand { P with arch := a } key).seeds.1 = (expand { P with arch := a' } key).seeds.1 ∧
    (expand { P with arch := a } key).bits = (expand { P with arch := a' } key).bits :=
  ⟨rfl, rfl⟩

/-! ## C14: the two masked bits -/

/-- C14. Seeds that agree except in the two lowest bits of byte 0 expand identically. -/
theorem C14_masked_bits_ignored (P : Prims) (key key' : Block) (left right : Bool)
    (h0 : ∀ j, 2 ≤ j → key[0].getLsbD j = key'[0].getLsbD j)
    (h : ∀ i (hi : i < 16), i ≠ 0 → key[i] = key'[i]) :
    expandDir P key left right = expandDir P key' left right := by
  have : maskKey key = maskKey key' := (maskKey_eq_iff key key').2 ⟨h0, h⟩
  unfold expandDir
  rw [this]

/-- C14. For every cipher making block 0 of the keystream injective in the counter, two seeds
expand identically only if they agree up to the two masked bits. -/
theorem C14_other_bits_change_left_seed (P : Prims) (key key' : Block)
    (hinj : Function.Injective fun c => vxor (P.aes c) c)
    (he : (expand P key).seeds.1 = (expand P key').seeds.1) :
    (∀ j, 2 ≤ j → key[0].getLsbD j = key'[0].getLsbD j) ∧
      ∀ i (hi : i < 16), i ≠ 0 → key[i] = key'[i] :=
  (maskKey_eq_iff key key').1 (hinj he)

/-- such a cipher exists -/
example : Function.Injective fun c : Block => vxor Block.zero c :=
  fun _ _ h => vxor_left_inj.1 h

/-- two different seeds with the same expansion -/
example : Block.zero ≠ Block.zero.set 0 3#8 ∧
    maskKey Block.zero = maskKey (Block.zero.set 0 3#8) := by decide

end Mastic
