import Verif.Model.PrgStream
import Verif.Props.Prg

/-!
# C66, C67: domain separation of the PRG, and `PrgStream`
-/

namespace Mastic

/-! ## C66: expansion and conversion of a seed use different randomness -/

theorem maskKey_of_low {key : Block} (h : key[0].toNat % 4 = 0) : maskKey key = key := by
  rw [maskKey_eq_seedCounter]
  unfold Spec.seedCounter
  have : 4 * (key[0].toNat / 4) = key[0].toNat := by omega
  rw [this, BitVec.ofNat_toNat, BitVec.setWidth_eq]
  exact Vector.set_getElem_self (by omega)

/-- **C66 fails.**  For every seed whose first byte has its two lowest bits clear (a quarter of all seeds), the seed
that `convert` returns is the left child, and the first entry of the value it returns is the right child read as
a number. -/
theorem C66_false_same_keystream (P : Prims) (key : Block) (n : Nat) (h : key[0].toNat % 4 = 0) :
    (convert P key n).seed = (expand P key).seeds.1 ∧
    (convert P key n).word[0]? = some ((leNat (expand P key).seeds.2.toList : Nat) : Field128) := by
  unfold convert expand expandDir
  simp only [maskKey_of_low h, if_true]
  simp

/-- the hypothesis holds for the zero seed -/
example : Block.zero[0].toNat % 4 = 0 := by decide

/-- **C66 fails.**  On other architectures it also fails for the seeds with lowest bits 01: the seed that `convert`
returns is the right child. -/
theorem C66_false_right_child (P : Prims) (ha : P.arch = .other) (key : Block) (n : Nat)
    (h : key[0].toNat % 4 = 1) : (convert P key n).seed = (expand P key).seeds.2 := by
  have hinc : incBe .other (maskKey key) = key := by
    apply Vector.toList_inj.1
    rw [incBe_toList, maskKey_eq_seedCounter]
    have hk : key.toList = key[0] :: key.toList.drop 1 := by
      conv_lhs => rw [← List.drop_zero (l := key.toList), List.drop_eq_getElem_cons (by simp)]
      simp
    have hs : (Spec.seedCounter key).toList = BitVec.ofNat 8 (4 * (key[0].toNat / 4)) :: key.toList.drop 1 := by
      unfold Spec.seedCounter
      rw [Vector.toList_set]
      conv_lhs => rw [hk]
      rfl
    have hb : (BitVec.ofNat 8 (4 * (key[0].toNat / 4))).toNat + 1 = key[0].toNat := by
      have := key[0].isLt
      rw [BitVec.toNat_ofNat, Nat.mod_eq_of_lt (by omega)]
      omega
    unfold Spec.counter
    rw [hs]
    simp only [List.take_succ_cons, leNat, List.drop_succ_cons]
    have hn : (BitVec.ofNat 8 (4 * (key[0].toNat / 4))).toNat + 256 * leNat ((key.toList.drop 1).take 7) + 1
        = leNat (key.toList.take 8) := by
      conv_rhs => rw [hk]
      simp only [List.take_succ_cons, leNat]
      omega
    rw [hn]
    have := natLE_leNat (key.toList.take 8)
    simp only [List.length_take, Vector.length_toList] at this
    rw [show min 8 16 = 8 from rfl] at this
    rw [this, List.drop_drop]
    exact List.take_append_drop 8 key.toList
  unfold convert expand expandDir
  simp only [if_true, ksBlock, Function.iterate_one, Function.iterate_zero, id_eq, ha, hinc]

example : { toy with arch := .other }.arch = .other ∧ (Block.zero.set 0 1#8)[0].toNat % 4 = 1 := by decide

/-- **C66 fails.**  Conversions of related seeds overlap: the value for a seed starts with the seed returned
for the incremented seed. -/
theorem C66_false_related_seeds (P : Prims) (key : Block) (n : Nat) :
    (convert P key n).word[0]? = some ((leNat (convert P (incBe P.arch key) n).seed.toList : Nat) : Field128) := by
  unfold convert
  simp [ksBlock]

/-- **C66, what does hold** on x86_64 for the seeds with one of the two bits set: expansion and conversion use
different cipher inputs, so that no conversion says anything about the children: for all values `a`, `b` there is
a cipher for which all conversions of this seed are as before and the children are `a` and `b`.  Missing: a quarter
of the seeds, and other architectures. -/
theorem C66_separate_partial (P : Prims) (ha : P.arch = .x86_64) (key : Block) (h : key[0].toNat % 4 ≠ 0)
    (a b : Block) :
    ∃ aes : Block → Block, (∀ n, convert { P with aes := aes } key n = convert P key n) ∧
      (expand { P with aes := aes } key).seeds = (a, b) := by
  have h0 : ∀ (c : Block) (i : Nat), ((incBe .x86_64)^[i] c)[0] = c[0] := by
    intro c i
    have hl := congrArg (fun l => l[0]?) (iter_incBe_toList .x86_64 c i)
    simp only [Spec.counter] at hl
    rw [List.getElem?_append_left (by simp), List.getElem?_take_of_lt (by omega)] at hl
    simpa using hl
  have hm : (maskKey key)[0] ≠ key[0] := by
    rw [maskKey_eq_seedCounter]
    unfold Spec.seedCounter
    intro he
    have := congrArg BitVec.toNat he
    have hlt := key[0].isLt
    simp only [Vector.getElem_set_self, BitVec.toNat_ofNat] at this
    rw [Nat.mod_eq_of_lt (by omega)] at this
    omega
  have hne : incBe .x86_64 (maskKey key) ≠ maskKey key := by
    intro he
    have h1 := incBe_toList .x86_64 (maskKey key)
    rw [he] at h1
    have h3 := congrArg (fun l => leNat (l.drop 8)) h1
    simp only [Spec.counter] at h3
    rw [List.drop_left' (by simp), leNat_natLE] at h3
    have h5 := leNat_lt ((maskKey key).toList.drop 8)
    simp only [List.length_drop, Vector.length_toList] at h5
    norm_num at h3 h5
    omega
  let aes : Block → Block := fun c =>
    if c = maskKey key then vxor a c else if c = incBe Arch.x86_64 (maskKey key) then vxor b c else P.aes c
  refine ⟨aes, fun n => ?_, ?_⟩
  · have hks : ∀ i, ksBlock { P with aes := aes } key i = ksBlock P key i := by
      intro i
      unfold ksBlock
      simp only [ha, aes]
      rw [if_neg, if_neg]
      · intro he
        apply hm
        have := congrArg (fun c : Block => c[0]) he
        simp only [h0] at this
        rw [this]
        exact (h0 (maskKey key) 1).symm
      · intro he
        apply hm
        have := congrArg (fun c : Block => c[0]) he
        simp only [h0] at this
        exact this.symm
    unfold convert
    simp only [hks]
  · have hx : ∀ x c : Block, vxor (vxor x c) c = x := by
      intro x c
      ext i hi
      simp [vxor, BitVec.xor_assoc]
    unfold expand expandDir ksBlock
    simp only [if_true, Function.iterate_zero, id_eq, Function.iterate_one, ha, if_neg hne, hx, aes]

/-- seeds with lowest bits 01, as in the last two theorems -/
example : (Block.zero.set 0 1#8)[0].toNat % 4 = 1 := by decide

/-! ## C67: `PrgStream` -/

/-- **C67 (partial).** Into a zeroed buffer, `fill_bytes` writes the next keystream bytes, in both builds.  (Missing: other
buffers, `C67_false_dirty`, and silence, `C67_false_printed`.) -/
theorem C67_zeroed_partial (ctr : Block → Nat → Byte) (bld : Build) (s : PrgStream) (n : Nat) :
    (s.fillBytes ctr bld (List.replicate n 0#8)).2
      = .ok ((List.range n).map fun i => ctr s.key (s.pos + i), { s with pos := s.pos + n }) := by
  have hall : (List.replicate n (0#8 : Byte)).all (fun v => v == 0#8) = true := by simp
  unfold PrgStream.fillBytes
  rw [hall]
  have hd : debugAssert bld true = .ok () := by cases bld <;> rfl
  rw [hd]
  simp only [List.length_replicate, Except.ok.injEq, Prod.mk.injEq, and_true]
  refine List.ext_getElem (by simp) fun i h1 h2 => ?_
  simp

/-- C67. Successive requests into zeroed buffers give the same bytes as one request. -/
theorem C67_chunks (ctr : Block → Nat → Byte) (bld bld' : Build) (s s' t : PrgStream) (m n : Nat) (a b : List Byte)
    (h1 : (s.fillBytes ctr bld (List.replicate m 0#8)).2 = .ok (a, s'))
    (h2 : (s'.fillBytes ctr bld (List.replicate n 0#8)).2 = .ok (b, t)) :
    (s.fillBytes ctr bld' (List.replicate (m + n) 0#8)).2 = .ok (a ++ b, t) := by
  rw [C67_zeroed_partial] at h1 h2 ⊢
  cases h1; cases h2
  simp only [Except.ok.injEq, Prod.mk.injEq, PrgStream.mk.injEq, true_and]
  refine ⟨?_, by omega⟩
  rw [List.range_add, List.map_append, List.map_map]
  congr 1
  refine List.map_congr_left fun i _ => ?_
  simp only [Function.comp]
  congr 1; omega

/-- C67. `next_u64` after `to_rng` reads keystream bytes 0 to 7, `next_u32` bytes 0 to 3, little endian. -/
theorem C67_next (ctr : Block → Nat → Byte) (bld : Build) (key : Block) :
    ((toRng key).nextU64 ctr bld).2 = .ok (leNat ((List.range 8).map (ctr key)), ⟨key, 8⟩) ∧
    ((toRng key).nextU32 ctr bld).2 = .ok (leNat ((List.range 4).map (ctr key)), ⟨key, 4⟩) := by
  unfold PrgStream.nextU64 PrgStream.nextU32
  simp only [C67_zeroed_partial, Except.map]
  simp [toRng]

/-- **C67 fails.**  `fill_bytes` does not overwrite the buffer: a debug build panics iff the buffer is not all
zero, and a release build returns the keystream bytes exactly if it is. -/
theorem C67_false_dirty (ctr : Block → Nat → Byte) (s : PrgStream) (dest : List Byte) :
    (Panics (s.fillBytes ctr .debug dest).2 ↔ ∃ v ∈ dest, v ≠ 0#8) ∧
    ((s.fillBytes ctr .release dest).2
        = .ok ((List.range dest.length).map fun i => ctr s.key (s.pos + i), { s with pos := s.pos + dest.length }) ↔
      ∀ v ∈ dest, v = 0#8) := by
  constructor
  · unfold PrgStream.fillBytes debugAssert Panics
    by_cases h : dest.all (fun v => v == 0#8) = true
    · rw [if_pos h]
      simp only [reduceCtorEq, exists_false, false_iff, not_exists, not_and, not_not]
      simpa using h
    · simp only [if_neg h, Except.error.injEq, exists_eq', true_iff]
      simpa using h
  · unfold PrgStream.fillBytes debugAssert
    simp only [Except.ok.injEq, Prod.mk.injEq, and_true]
    constructor
    · intro h v hv
      obtain ⟨i, hi, rfl⟩ := List.getElem_of_mem hv
      have := congrArg (fun l => l[i]?) h
      simp [hi] at this
      have h2 := congrArg (fun x => x ^^^ ctr s.key (s.pos + i)) this
      simpa [BitVec.xor_assoc] using h2
    · intro h
      refine List.ext_getElem (by simp) fun i h1 h2 => ?_
      have hi : i < dest.length := by simpa using h1
      simp [h _ (List.getElem_mem hi)]

/-- **C67 fails.**  Everything `fill_bytes` returns has been printed to the console before. -/
theorem C67_false_printed (ctr : Block → Nat → Byte) (bld : Build) (s s' : PrgStream) (dest out : List Byte)
    (h : (s.fillBytes ctr bld dest).2 = .ok (out, s')) :
    PrintLine.after out ∈ (s.fillBytes ctr bld dest).1 := by
  unfold PrgStream.fillBytes at h ⊢
  split at h
  · cases h
  · cases h; simp

/-- A release build with a dirty buffer, and the same in a debug build. -/
example : ((toRng Block.zero).fillBytes (fun _ i => BitVec.ofNat 8 i) .release [1#8, 1#8, 1#8]).2
      = .ok ([1#8, 0#8, 3#8], ⟨Block.zero, 3⟩) ∧
    Panics ((toRng Block.zero).fillBytes (fun _ i => BitVec.ofNat 8 i) .debug [0#8, 1#8, 1#8]).2 := by
  refine ⟨rfl, ⟨_, rfl⟩⟩

/-- C67. XOR of seeds is bytewise, its own inverse, and the zero seed is neutral. -/
theorem C67_seed_xor (a b : Block) :
    seedXor a b = vxor a b ∧ seedXor (seedXor a b) b = a ∧ seedXor a Block.zero = a := by
  have h1 : ∀ a b : Block, seedXor a b = vxor a b := by
    intro a b
    unfold seedXor vxor Block.ofList
    ext i hi
    simp [List.getD_eq_getElem?_getD, hi]
  refine ⟨h1 a b, ?_, ?_⟩
  · rw [h1, h1]
    ext i hi
    simp [vxor, BitVec.xor_assoc]
  · rw [h1]
    ext i hi
    simp [vxor, Block.zero]

end Mastic
