import Mathlib.Tactic.IntervalCases
import Verif.Spec.Prg
import Verif.Lemmas.LibLemmas

/-!
# Helper lemmas: counters, keystream, stream state
-/

namespace Mastic

theorem Block.toList_ofList {l : List Byte} (h : l.length = 16) : (Block.ofList l).toList = l := by
  apply List.ext_getElem
  · simp [h]
  · intro i h1 h2
    simp [Block.ofList, List.getD, List.getElem?_eq_getElem h2]

theorem Block.ofList_toList (b : Block) : Block.ofList b.toList = b :=
  Vector.toList_inj.1 (Block.toList_ofList (by simp))

theorem carryLoop_eq (l : List Byte) (c : Bool) :
    carryLoop l c = natLE l.length (leNat l + c.toNat) := by
  induction l generalizing c with
  | nil => rfl
  | cons x xs ih =>
    have hx := x.isLt
    simp only [carryLoop, leNat, List.length_cons, natLE, ih]
    have hc : c.toNat ≤ 1 := Bool.toNat_le c
    have h1 : BitVec.ofNat 8 (x.toNat + c.toNat)
        = BitVec.ofNat 8 (x.toNat + 256 * leNat xs + c.toNat) := by
      apply BitVec.eq_of_toNat_eq
      rw [BitVec.toNat_ofNat, BitVec.toNat_ofNat]; omega
    have h2 : leNat xs + (decide (256 ≤ x.toNat + c.toNat)).toNat
        = (x.toNat + 256 * leNat xs + c.toNat) / 256 := by
      by_cases h : 256 ≤ x.toNat + c.toNat
      · simp only [h, decide_true, Bool.toNat_true]; omega
      · simp only [h, decide_false, Bool.toNat_false]; omega
    rw [h1, h2]

theorem natLE_mod (n x : Nat) : natLE n (x % 256 ^ n) = natLE n x := by
  have h := natLE_leNat (natLE n x)
  rw [natLE_length, leNat_natLE] at h
  exact h

theorem natLE_add_mod (n x y : Nat) : natLE n (x % 256 ^ n + y) = natLE n (x + y) := by
  rw [← natLE_mod n (x % 256 ^ n + y), ← natLE_mod n (x + y), Nat.mod_add_mod]

theorem incBe_toList (arch : Arch) (c : Block) :
    (incBe arch c).toList = Spec.counter arch c 1 := by
  cases arch
  · exact Block.toList_ofList (by simp)
  · have hcl : carryLoop (c.toList.take 8) true = natLE 8 (leNat (c.toList.take 8) + 1) := by
      rw [carryLoop_eq]; simp
    show (Block.ofList _).toList = _
    rw [Block.toList_ofList (by rw [hcl]; simp), hcl]; rfl

theorem counter_length (arch : Arch) (key : Block) (i : Nat) :
    (Spec.counter arch key i).length = 16 := by
  cases arch <;> simp [Spec.counter]

theorem iter_incBe_toList (arch : Arch) (key : Block) (i : Nat) :
    ((incBe arch)^[i] key).toList = Spec.counter arch key i := by
  induction i with
  | zero =>
    cases arch
    · simp only [Function.iterate_zero, id, Spec.counter, Nat.add_zero]
      have h := natLE_leNat (key.toList.drop 8)
      simp only [List.length_drop, Vector.length_toList] at h
      rw [h, List.take_append_drop]
    · simp only [Function.iterate_zero, id, Spec.counter, Nat.add_zero]
      have h := natLE_leNat (key.toList.take 8)
      rw [show (key.toList.take 8).length = 8 by simp] at h
      rw [h, List.take_append_drop]
  | succ i ih =>
    rw [Function.iterate_succ_apply', incBe_toList]
    cases arch
    · simp only [Spec.counter] at ih ⊢
      rw [ih]
      rw [List.take_left' (by simp), List.drop_left' (by simp), leNat_natLE, natLE_add_mod]; rfl
    · simp only [Spec.counter] at ih ⊢
      rw [ih]
      rw [List.take_left' (by simp), List.drop_left' (by simp), leNat_natLE, natLE_add_mod]; rfl

theorem ksBlock_toList (P : Prims) (key : Block) (i : Nat) :
    (ksBlock P key i).toList = Spec.keystreamBlock P key i := by
  unfold ksBlock Spec.keystreamBlock
  rw [← iter_incBe_toList, Block.ofList_toList]
  exact Vector.toList_zipWith

/-- The `j`-th keystream byte. -/
def ksByte (P : Prims) (key : Block) (j : Nat) : Byte :=
  (ksBlock P key (j / 16))[j % 16]'(Nat.mod_lt _ (by decide))

/-- `n` keystream bytes from position `pos`. -/
def ksBytes (P : Prims) (key : Block) (pos n : Nat) : List Byte :=
  (List.range' pos n).map (ksByte P key)

@[simp] theorem ksBytes_length (P : Prims) (key : Block) (pos n : Nat) :
    (ksBytes P key pos n).length = n := by simp [ksBytes]

theorem ksBytes_append (P : Prims) (key : Block) (pos m n : Nat) :
    ksBytes P key pos m ++ ksBytes P key (pos + m) n = ksBytes P key pos (m + n) := by
  unfold ksBytes
  rw [← List.map_append, List.range'_append_1]

theorem ksBytes_take (P : Prims) (key : Block) (pos : Nat) {m n : Nat} (h : m ≤ n) :
    (ksBytes P key pos n).take m = ksBytes P key pos m := by
  obtain ⟨k, rfl⟩ := Nat.exists_eq_add_of_le h
  rw [← ksBytes_append, List.take_left' (by simp)]

theorem ksBytes_drop (P : Prims) (key : Block) (pos m n : Nat) :
    (ksBytes P key pos (m + n)).drop m = ksBytes P key (pos + m) n := by
  rw [← ksBytes_append, List.drop_left' (by simp)]

theorem ksBytes_block (P : Prims) (key : Block) (i : Nat) :
    ksBytes P key (16 * i) 16 = (ksBlock P key i).toList := by
  apply List.ext_getElem
  · simp
  · intro j h1 h2
    simp only [ksBytes_length] at h1
    simp only [ksBytes, List.getElem_map, List.getElem_range', ksByte, Vector.getElem_toList]
    have e1 : (16 * i + 1 * j) / 16 = i := by omega
    have e2 : (16 * i + 1 * j) % 16 = j := by omega
    simp only [e1, e2]

theorem ksBytes_blocks (P : Prims) (key : Block) (n i : Nat) :
    ksBytes P key (16 * i) (16 * n)
      = ((List.range' i n).map fun k => (ksBlock P key k).toList).flatten := by
  induction n generalizing i with
  | zero => rfl
  | succ n ih =>
    have : 16 * (n + 1) = 16 + 16 * n := by ring
    rw [this, ← ksBytes_append, ksBytes_block, List.range'_succ, List.map_cons, List.flatten_cons]
    congr 1
    have : 16 * i + 16 = 16 * (i + 1) := by ring
    rw [this, ih]

theorem keystream_eq (P : Prims) (key : Block) (n : Nat) :
    Spec.keystream P key n = ksBytes P key 0 (16 * n) := by
  have := ksBytes_blocks P key n 0
  rw [Nat.mul_zero] at this
  rw [this, Spec.keystream, List.range_eq_range', List.flatMap]
  congr 1
  apply List.map_congr_left
  intro i _
  rw [ksBlock_toList]

theorem keystreamSlice_eq (P : Prims) (key : Block) (pos n : Nat) :
    Spec.keystreamSlice P key pos n = ksBytes P key pos n := by
  unfold Spec.keystreamSlice
  rw [keystream_eq]
  have : 16 * (pos + n) = pos + (n + 15 * (pos + n)) := by ring
  rw [this, ksBytes_drop, ksBytes_take _ _ _ (by omega), Nat.zero_add]

/-- The stream `s` has delivered `pos` bytes of the keystream of `key`. -/
structure StreamAt (P : Prims) (key : Block) (pos : Nat) (s : Stream) : Prop where
  bufLen : s.buf.length = 128
  ptr_le : s.bufPtr ≤ s.have_
  have_le : s.have_ ≤ 128
  avail : (s.buf.drop s.bufPtr).take (s.have_ - s.bufPtr) = ksBytes P key pos (s.have_ - s.bufPtr)
  ctr : ∃ k, s.ctr = (incBe P.arch)^[k] key ∧ pos + (s.have_ - s.bufPtr) = 16 * k

theorem streamAt_setKey (P : Prims) (key : Block) (s : Stream) (h : s.buf.length = 128) :
    StreamAt P key 0 (s.setKey key) :=
  { bufLen := h, ptr_le := Nat.le_refl _, have_le := by simp [Stream.setKey]
    avail := by simp [Stream.setKey, ksBytes]
    ctr := ⟨0, rfl, by simp [Stream.setKey]⟩ }

theorem xorInPlace_append (a b c d : List Byte) (h : a.length = c.length) :
    xorInPlace (a ++ b) (c ++ d) = xorInPlace a c ++ xorInPlace b d := by
  induction a generalizing c with
  | nil => cases c <;> simp_all [xorInPlace]
  | cons x xs ih =>
    cases c with
    | nil => simp at h
    | cons y ys => simp only [List.cons_append, xorInPlace]; rw [ih ys (by simpa using h)]

theorem refill_at {P : Prims} {key : Block} {pos : Nat} {s : Stream} {bld : Build}
    (h : StreamAt P key pos s) (hp : s.bufPtr = s.have_) (hb : bld = .debug → s.have_ = 16) :
    ∃ s', s.refill P bld = .ok s' ∧ StreamAt P key pos s' ∧ s'.have_ = 16 ∧ s'.bufPtr = 0 := by
  obtain ⟨k, hk, hpos⟩ := h.ctr
  have hda : debugAssert bld (s.bufPtr == 16) = .ok () := by
    rw [debugAssert_eq_ok]; intro hd; rw [hp, hb hd]; rfl
  refine ⟨_, by unfold Stream.refill; rw [hda]; rfl, ?_, rfl, rfl⟩
  have hlen : (s.buf.drop 16).length = 112 := by simp [h.bufLen]
  have hb2 : ((P.aes s.ctr).toList ++ (s.ctr.toList ++ s.buf.drop 16).drop 16)
      = (P.aes s.ctr).toList ++ s.buf.drop 16 := by
    rw [List.drop_left' (by simp)]
  refine ⟨?_, Nat.zero_le _, by simp, ?_, ?_⟩
  · simp [xorInPlace_length, h.bufLen]
  · simp only [Nat.sub_zero, List.drop_zero]
    rw [hb2, xorInPlace_append _ _ _ _ (by simp), xorInPlace_toList, List.take_left' (by simp)]
    have : pos = 16 * k := by omega
    subst this
    rw [ksBytes_block, hk]; rfl
  · refine ⟨k + 1, ?_, ?_⟩
    · rw [Function.iterate_succ_apply', hk]
    · simp only [Nat.sub_zero]; omega

theorem counters_eq (arch : Arch) (n : Nat) (c : Block) :
    counters arch n c = (List.range n).map fun i => (incBe arch)^[i] c := by
  induction n generalizing c with
  | zero => rfl
  | succ n ih =>
    rw [counters, ih, List.range_succ_eq_map, List.map_cons, List.map_map]
    rfl

theorem refill8_at {P : Prims} {key : Block} {pos : Nat} {s : Stream}
    (h : StreamAt P key pos s) (hp : s.bufPtr = s.have_) :
    StreamAt P key pos (s.refill8 P) ∧ (s.refill8 P).have_ = 128 ∧ (s.refill8 P).bufPtr = 0 := by
  obtain ⟨k, hk, hpos⟩ := h.ctr
  have hpk : pos = 16 * k := by omega
  have hbuf : (s.refill8 P).buf = ksBytes P key pos 128 := by
    show ((counters P.arch 8 s.ctr).map fun c => xorInPlace (P.aes c).toList c.toList).flatten = _
    rw [hpk, show (128 : Nat) = 16 * 8 from rfl, ksBytes_blocks, counters_eq, List.map_map,
      List.range'_eq_map_range, List.map_map]
    congr 1
    apply List.map_congr_left
    intro i _
    simp only [Function.comp_apply]
    rw [xorInPlace_toList, hk, ← Function.iterate_add_apply]
    unfold ksBlock
    rw [Nat.add_comm i k]
  refine ⟨⟨?_, Nat.zero_le _, Nat.le_refl _, ?_, ?_⟩, rfl, rfl⟩
  · rw [hbuf]; simp
  · show ((s.refill8 P).buf.drop 0).take 128 = _
    rw [hbuf, List.drop_zero, ksBytes_take _ _ _ (Nat.le_refl _)]; rfl
  · refine ⟨8 + k, ?_, ?_⟩
    · rw [Function.iterate_add_apply, ← hk]; rfl
    · show pos + (128 - 0) = _; omega

/-- Copying `m` available bytes. -/
theorem copy_at {P : Prims} {key : Block} {pos : Nat} {s : Stream} (h : StreamAt P key pos s)
    {m : Nat} (hm : m ≤ s.have_ - s.bufPtr) :
    (s.buf.drop s.bufPtr).take m = ksBytes P key pos m ∧
      StreamAt P key (pos + m) { s with bufPtr := s.bufPtr + m } := by
  have hp := h.ptr_le
  constructor
  · rw [← ksBytes_take P key pos hm, ← h.avail, List.take_take, Nat.min_eq_left hm]
  · refine ⟨h.bufLen, by simp only; omega, h.have_le, ?_, ?_⟩
    · simp only
      have e : s.have_ - (s.bufPtr + m) = (s.have_ - s.bufPtr) - m := by omega
      rw [← List.drop_drop, e, ← List.drop_take, h.avail]
      have : s.have_ - s.bufPtr = m + ((s.have_ - s.bufPtr) - m) := by omega
      conv_lhs => rw [this]
      rw [ksBytes_drop]
    · obtain ⟨k, hk, hpos⟩ := h.ctr
      exact ⟨k, hk, by simp only; omega⟩

/-- `fill_bytes` delivers the next keystream bytes.  In debug builds this needs short requests on a
stream that only used the one-block refill. -/
theorem fillLoop_at {P : Prims} {key : Block} (bld : Build) (total : Nat) (fuel rem : Nat) :
    ∀ (pos : Nat) (s : Stream), rem ≤ fuel → StreamAt P key pos s →
      (bld = .debug → total ≤ 64 ∧ s.have_ = 16) →
      ∃ s', s.fillLoop P bld total fuel rem = .ok (ksBytes P key pos rem, s') ∧
        StreamAt P key (pos + rem) s' ∧ (total ≤ 64 ∧ s.have_ = 16 → s'.have_ = 16) := by
  induction fuel generalizing rem with
  | zero =>
    intro pos s hle hs hb
    have : rem = 0 := by omega
    subst this
    exact ⟨s, rfl, hs, fun h => h.2⟩
  | succ fuel ih =>
    intro pos s hle hs hb
    cases rem with
    | zero => exact ⟨s, rfl, hs, fun h => h.2⟩
    | succ rem =>
      obtain ⟨s1, hs1, hat, havail, hh⟩ : ∃ s1,
          (if s.bufPtr = s.have_ then
            (if total > 4 * 16 then (.ok (s.refill8 P) : Exec Stream) else s.refill P bld)
            else .ok s) = .ok s1 ∧ StreamAt P key pos s1 ∧ 0 < s1.have_ - s1.bufPtr ∧
            (total ≤ 64 ∧ s.have_ = 16 → s1.have_ = 16) := by
        by_cases hp : s.bufPtr = s.have_
        · rw [if_pos hp]
          by_cases ht : total > 4 * 16
          · obtain ⟨h1, h2, h3⟩ := refill8_at hs hp
            exact ⟨_, if_pos ht, h1, by rw [h2, h3]; decide, fun h => by omega⟩
          · obtain ⟨s', h1, h2, h3, h4⟩ := refill_at (bld := bld) hs hp (fun hd => (hb hd).2)
            exact ⟨s', by rw [if_neg ht, h1], h2, by rw [h3, h4]; decide, fun _ => h3⟩
        · have := hs.ptr_le
          exact ⟨s, if_neg hp, hs, by omega, fun h => h.2⟩
      set m := min (s1.have_ - s1.bufPtr) (rem + 1) with hm
      have hm1 : m ≤ s1.have_ - s1.bufPtr := Nat.min_le_left _ _
      have hm2 : m ≤ rem + 1 := Nat.min_le_right _ _
      have hm0 : 0 < m := by rw [hm]; omega
      obtain ⟨hc, hcs⟩ := copy_at hat hm1
      obtain ⟨s2, h2, hat2, hh2⟩ := ih (rem + 1 - m) (pos + m) { s1 with bufPtr := s1.bufPtr + m }
        (by omega) hcs (fun hd => ⟨(hb hd).1, hh (hb hd)⟩)
      refine ⟨s2, ?_, ?_, fun h => hh2 ⟨h.1, hh h⟩⟩
      · rw [Stream.fillLoop, hs1]
        simp only [ok_bind]
        rw [← hm, h2, hc]
        simp only [ok_bind]
        rw [ksBytes_append]
        have : m + (rem + 1 - m) = rem + 1 := by omega
        rw [this]
      · have : pos + m + (rem + 1 - m) = pos + (rem + 1) := by omega
        rwa [this] at hat2

theorem fillBytes_at {P : Prims} {key : Block} (bld : Build) {pos : Nat} {s : Stream} (n : Nat)
    (hs : StreamAt P key pos s) (hb : bld = .debug → n ≤ 64 ∧ s.have_ = 16) :
    ∃ s', s.fillBytes P bld n = .ok (ksBytes P key pos n, s') ∧
      StreamAt P key (pos + n) s' ∧ (n ≤ 64 ∧ s.have_ = 16 → s'.have_ = 16) :=
  fillLoop_at bld n n n pos s (Nat.le_refl _) hs hb


/-! ### `expand_dir` and `convert` through the stream -/

theorem incBe_ofList_toList (b : Block) : Block.ofList b.toList = b := Block.ofList_toList b

theorem skipBlock_at {P : Prims} {key : Block} {s : Stream} (bld : Build) (k : Nat)
    (hs : StreamAt P key (16 * k) s) (hh : s.have_ = 16) (hp : s.bufPtr = 16) :
    ∃ s', s.skipBlock P bld = .ok s' ∧ StreamAt P key (16 * (k + 1)) s' ∧ s'.have_ = 16 ∧
      s'.bufPtr = 16 := by
  refine ⟨{ s with ctr := incBe P.arch s.ctr }, ?_, ?_, hh, hp⟩
  · unfold Stream.skipBlock
    rw [hh, hp]
    cases bld <;> rfl
  · obtain ⟨j, hj, hpos⟩ := hs.ctr
    refine ⟨hs.bufLen, hs.ptr_le, hs.have_le, ?_, j + 1, ?_, ?_⟩
    · simp only [hh, hp, Nat.sub_self, List.take_zero, ksBytes, List.range'_zero, List.map_nil]
    · simp only [Function.iterate_succ_apply', hj]
    · simp only [hh, hp] at hpos ⊢; omega

/-- A one-block read from a stream whose buffer is used up. -/
theorem fillBytes_block_at {P : Prims} {key : Block} {s : Stream} (bld : Build) (k : Nat)
    (hs : StreamAt P key (16 * k) s) (hh : s.have_ = 16) (hp : s.bufPtr = 16) :
    ∃ s', s.fillBytes P bld 16 = .ok ((ksBlock P key k).toList, s') ∧
      StreamAt P key (16 * (k + 1)) s' ∧ s'.have_ = 16 ∧ s'.bufPtr = 16 := by
  obtain ⟨s', h1, h2, h3⟩ := fillBytes_at bld 16 hs (fun _ => ⟨by decide, hh⟩)
  have h4 := h3 ⟨by decide, hh⟩
  refine ⟨s', ?_, h2, h4, ?_⟩
  · rw [h1, ksBytes_block]
  · obtain ⟨j, _, hj⟩ := h2.ctr
    obtain ⟨s1, hr, h5, h6, h7⟩ := refill_at (bld := bld) hs (by rw [hh, hp]) (fun _ => hh)
    -- run the loop
    have : s.fillBytes P bld 16 = .ok ((s1.buf.drop 0).take 16 ++ [], { s1 with bufPtr := 16 }) := by
      unfold Stream.fillBytes
      rw [Stream.fillLoop, if_pos (by rw [hh, hp]), if_neg (by decide), hr]
      simp only [ok_bind, h6, h7]
      rfl
    rw [this] at h1
    injection h1 with h1
    injection h1 with _ h1
    rw [← h1]

theorem fillOrSkip_at {P : Prims} {key : Block} {s : Stream} (bld : Build) (dir : Bool) (k : Nat)
    (hs : StreamAt P key (16 * k) s) (hh : s.have_ = 16) (hp : s.bufPtr = 16) :
    ∃ s', s.fillOrSkip P bld dir = .ok (if dir then ksBlock P key k else Block.zero, s') ∧
      StreamAt P key (16 * (k + 1)) s' ∧ s'.have_ = 16 ∧ s'.bufPtr = 16 := by
  unfold Stream.fillOrSkip
  cases dir with
  | true =>
    obtain ⟨s', h1, h2⟩ := fillBytes_block_at bld k hs hh hp
    refine ⟨s', ?_, h2⟩
    rw [if_pos rfl, h1]
    simp only [ok_bind, Block.ofList_toList, if_true]
  | false =>
    obtain ⟨s', h1, h2⟩ := skipBlock_at bld k hs hh hp
    refine ⟨s', ?_, h2⟩
    rw [if_neg (by decide), h1]
    simp

theorem expandDirST_at (P : Prims) (bld : Build) (s : Stream) (h : s.buf.length = 128) (key : Block)
    (left right : Bool) :
    ∃ s', expandDirST P bld s key left right = .ok (expandDir P key left right, s') ∧
      s'.buf.length = 128 := by
  have h0 := streamAt_setKey P (maskKey key) s h
  obtain ⟨s1, e1, a1, b1, c1⟩ := fillOrSkip_at bld left 0 h0 rfl rfl
  obtain ⟨s2, e2, a2, b2, c2⟩ := fillOrSkip_at bld right 1 a1 b1 c1
  refine ⟨s2, ?_, a2.bufLen⟩
  unfold expandDirST
  simp only [e1, ok_bind, e2]
  rfl

theorem nextU64_at {P : Prims} {key : Block} {s : Stream} (bld : Build) {pos : Nat}
    (hs : StreamAt P key pos s) (hh : s.have_ = 16) :
    ∃ s', s.nextU64 P bld = .ok (leNat (ksBytes P key pos 8), s') ∧
      StreamAt P key (pos + 8) s' ∧ s'.have_ = 16 := by
  obtain ⟨s', h1, h2, h3⟩ := fillBytes_at bld 8 hs (fun _ => ⟨by decide, hh⟩)
  refine ⟨s', ?_, h2, h3 ⟨by decide, hh⟩⟩
  unfold Stream.nextU64
  rw [h1]; rfl

theorem fieldFromU64s_eq (low high : Nat) :
    fieldFromU64s low high = ((low + 256 ^ 8 * high : Nat) : Field128) := by
  unfold fieldFromU64s
  congr 1
  norm_num; ring

theorem fieldFromRng_at {P : Prims} {key : Block} {s : Stream} (bld : Build) {k : Nat}
    (hs : StreamAt P key (16 * k) s) (hh : s.have_ = 16) :
    ∃ s', s.fieldFromRng P bld = .ok (((leNat (ksBlock P key k).toList : Nat) : Field128), s') ∧
      StreamAt P key (16 * (k + 1)) s' ∧ s'.have_ = 16 := by
  obtain ⟨s1, e1, a1, b1⟩ := nextU64_at bld hs hh
  obtain ⟨s2, e2, a2, b2⟩ := nextU64_at bld a1 b1
  refine ⟨s2, ?_, ?_, b2⟩
  · unfold Stream.fieldFromRng
    simp only [e1, ok_bind, e2]
    rw [fieldFromU64s_eq, ← ksBytes_block, show (16 : Nat) = 8 + 8 from rfl, ← ksBytes_append,
      leNat_append, ksBytes_length]
  · exact a2

theorem fields_at {P : Prims} {key : Block} (bld : Build) (n : Nat) :
    ∀ (k : Nat) (s : Stream), StreamAt P key (16 * k) s → s.have_ = 16 →
    ∃ s', s.fields P bld n = .ok ((List.range' k n).map fun i =>
        ((leNat (ksBlock P key i).toList : Nat) : Field128), s') ∧
      StreamAt P key (16 * (k + n)) s' ∧ s'.have_ = 16 := by
  induction n with
  | zero => intro k s hs hh; exact ⟨s, rfl, hs, hh⟩
  | succ n ih =>
    intro k s hs hh
    obtain ⟨s1, e1, a1, b1⟩ := fieldFromRng_at bld hs hh
    obtain ⟨s2, e2, a2, b2⟩ := ih (k + 1) s1 a1 b1
    refine ⟨s2, ?_, ?_, b2⟩
    · rw [Stream.fields]
      simp only [e1, ok_bind, e2]
      rfl
    · rwa [Nat.add_assoc, Nat.add_comm 1 n] at a2

theorem convertST_at (P : Prims) (bld : Build) (s : Stream) (h : s.buf.length = 128) (key : Block)
    (inputLen : Nat) :
    ∃ s', convertST P bld s key inputLen = .ok (convert P key inputLen, s') ∧
      s'.buf.length = 128 := by
  have h0 := streamAt_setKey P key s h
  obtain ⟨s1, e1, a1, b1, _⟩ := fillBytes_block_at bld 0 h0 rfl rfl
  obtain ⟨s2, e2, a2, b2⟩ := fields_at bld (inputLen + 1) 1 s1 a1 b1
  refine ⟨s2, ?_, a2.bufLen⟩
  unfold convertST
  simp only [e1, ok_bind, e2, Block.ofList_toList]
  unfold convert
  rw [List.range'_eq_map_range, List.map_map]
  congr 4
  funext i
  simp [Nat.add_comm]


theorem byte_mask (x : Byte) : x &&& 0xFC#8 = BitVec.ofNat 8 (4 * (x.toNat / 4)) := by
  revert x; decide +kernel

theorem maskKey_eq_seedCounter (key : Block) : maskKey key = Spec.seedCounter key := by
  unfold maskKey Spec.seedCounter
  rw [byte_mask]

theorem prgBits_maskKey (key : Block) : prgBits (maskKey key) = (true, true) := by
  unfold prgBits maskKey
  simp only [Vector.getElem_set_self]
  exact (by decide +kernel : ∀ x : Byte,
    (((x &&& 0xFC#8) &&& 0x1#8) == 0#8, ((x &&& 0xFC#8) &&& 0x2#8) == 0#8) = (true, true)) key[0]

theorem byte_mask_eq_iff (x y : Byte) :
    x &&& 0xFC#8 = y &&& 0xFC#8 ↔ ∀ j, 2 ≤ j → x.getLsbD j = y.getLsbD j := by
  have hm : ∀ j, (0xFC#8).getLsbD j = (decide (2 ≤ j) && decide (j < 8)) := by
    intro j
    by_cases hj : j < 8
    · interval_cases j <;> decide
    · rw [BitVec.getLsbD_of_ge _ _ (by omega)]; simp [hj]
  constructor
  · intro h j hj
    by_cases h8 : j < 8
    · have := congrArg (fun b => b.getLsbD j) h
      simp only [BitVec.getLsbD_and, hm] at this
      simpa only [hj, h8, decide_true, Bool.and_true] using this
    · rw [BitVec.getLsbD_of_ge _ _ (by omega), BitVec.getLsbD_of_ge _ _ (by omega)]
  · intro h
    apply BitVec.eq_of_getLsbD_eq
    intro j hj
    simp only [BitVec.getLsbD_and, hm]
    by_cases h2 : 2 ≤ j
    · rw [h j h2]
    · simp [h2]

theorem maskKey_eq_iff (key key' : Block) :
    maskKey key = maskKey key' ↔
      ((∀ j, 2 ≤ j → key[0].getLsbD j = key'[0].getLsbD j) ∧
        ∀ i (hi : i < 16), i ≠ 0 → key[i] = key'[i]) := by
  rw [← byte_mask_eq_iff]
  unfold maskKey
  constructor
  · intro h
    constructor
    · have := congrArg (fun v : Block => v[0]) h
      simpa using this
    · intro i hi h0
      have := congrArg (fun v : Block => v[i]) h
      simpa [Vector.getElem_set_ne _ _ (Ne.symm h0)] using this
  · rintro ⟨h1, h2⟩
    ext i hi : 1
    by_cases h0 : i = 0
    · subst h0; simpa using h1
    · simpa [Vector.getElem_set_ne _ _ (Ne.symm h0)] using h2 i hi h0

/-- Long requests only use the eight-block refill, whatever the build. -/
theorem fillLoop_drains (P : Prims) (bld : Build) (total : Nat) (ht : 64 < total) (j : Nat) :
    ∀ (fuel : Nat) (s : Stream), 128 * j ≤ fuel → s.bufPtr = s.have_ →
      ∃ bs s', s.fillLoop P bld total fuel (128 * j) = .ok (bs, s') ∧ s'.bufPtr = s'.have_ ∧
        (0 < j → s'.have_ = 128) := by
  induction j with
  | zero =>
    intro fuel s _ hp
    exact ⟨[], s, by cases fuel <;> rfl, hp, fun h => absurd h (by decide)⟩
  | succ j ih =>
    intro fuel s hf hp
    obtain ⟨f, rfl⟩ : ∃ f, fuel = f + 1 := ⟨fuel - 1, by omega⟩
    have e : 128 * (j + 1) = (128 * j + 127) + 1 := by ring
    obtain ⟨bs, s', h1, h2, h3⟩ := ih f { s.refill8 P with bufPtr := 128 } (by omega) rfl
    rw [e, Stream.fillLoop, if_pos hp, if_pos (by omega)]
    simp only [ok_bind]
    have hm : min ((s.refill8 P).have_ - (s.refill8 P).bufPtr) (128 * j + 127 + 1) = 128 := by
      show min (128 - 0) _ = 128
      omega
    rw [hm, show 128 * j + 127 + 1 - 128 = 128 * j by omega,
      show (s.refill8 P).bufPtr + 128 = 128 from rfl, h1]
    refine ⟨_, s', rfl, h2, ?_⟩
    intro _
    by_cases hj : 0 < j
    · exact h3 hj
    · have hj0 : j = 0 := by omega
      subst hj0
      have : Stream.fillLoop P bld total f (128 * 0) { s.refill8 P with bufPtr := 128 }
          = .ok ([], { s.refill8 P with bufPtr := 128 }) := by cases f <;> rfl
      rw [this] at h1
      injection h1 with h1
      injection h1 with _ h1
      rw [← h1]; rfl

theorem fill_drains (P : Prims) (bld : Build) (key : Block) (s : Stream) (k : Nat) :
    ∃ bs s', (s.setKey key).fillBytes P bld (128 * (k + 1)) = .ok (bs, s') ∧ s'.bufPtr = s'.have_ ∧
      s'.have_ = 128 := by
  obtain ⟨bs, s', h1, h2, h3⟩ := fillLoop_drains P bld (128 * (k + 1)) (by omega) (k + 1)
    (128 * (k + 1)) (s.setKey key) (Nat.le_refl _) rfl
  exact ⟨bs, s', h1, h2, h3 (Nat.succ_pos _)⟩

end Mastic
