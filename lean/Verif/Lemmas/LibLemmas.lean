import Verif.Lemmas.Vec
import Mathlib.Tactic.NormNum

/-!
# Helper lemmas: bytes, bits and strings
-/

namespace Mastic

theorem leNat_append (a b : List Byte) : leNat (a ++ b) = leNat a + 256 ^ a.length * leNat b := by
  induction a with
  | nil => simp [leNat]
  | cons x xs ih => simp only [List.cons_append, leNat, ih, List.length_cons]; ring

theorem leNat_lt (a : List Byte) : leNat a < 256 ^ a.length := by
  induction a with
  | nil => simp [leNat]
  | cons x xs ih =>
    have hx := x.isLt
    simp only [leNat, List.length_cons, pow_succ]; omega

@[simp] theorem natLE_length (n x : Nat) : (natLE n x).length = n := by
  induction n generalizing x with
  | zero => rfl
  | succ n ih => simp [natLE, ih]

theorem leNat_natLE (n x : Nat) : leNat (natLE n x) = x % 256 ^ n := by
  induction n generalizing x with
  | zero => simp [natLE, leNat, Nat.mod_one]
  | succ n ih =>
    simp only [natLE, leNat, ih, BitVec.toNat_ofNat]
    rw [pow_succ 256 n, Nat.mul_comm (256 ^ n) 256, Nat.mod_mul]

theorem natLE_leNat (a : List Byte) : natLE a.length (leNat a) = a := by
  induction a with
  | nil => rfl
  | cons x xs ih =>
    have hx := x.isLt
    simp only [List.length_cons, leNat, natLE]
    have h1 : BitVec.ofNat 8 (x.toNat + 256 * leNat xs) = x := by
      apply BitVec.eq_of_toNat_eq
      rw [BitVec.toNat_ofNat]; omega
    have h2 : (x.toNat + 256 * leNat xs) / 256 = leNat xs := by omega
    rw [h1, h2, ih]

theorem encodeField_length (x : Field128) : (encodeField x).length = 16 := by simp [encodeField]

theorem leNat_encodeField (x : Field128) : leNat (encodeField x) = x.val := by
  rw [encodeField, leNat_natLE, Nat.mod_eq_of_lt]
  exact lt_of_lt_of_le (ZMod.val_lt x) (by decide)

theorem encodeField_injective {x y : Field128} (h : encodeField x = encodeField y) : x = y := by
  have := congrArg leNat h
  rw [leNat_encodeField, leNat_encodeField] at this
  exact ZMod.val_injective _ this

/-- The bits of `u32ToBits`, when it returns. -/
theorem u32_bit (x : BitVec 32) (i : Nat) (h : i < 32) :
    ((x &&& (1#32 <<< i)) != 0#32) = x.toNat.testBit i := by
  have key : (x &&& (1#32 <<< i)) = if x.getLsbD i then 1#32 <<< i else 0#32 := by
    ext j hj
    simp only [BitVec.getElem_and, BitVec.getElem_shiftLeft, BitVec.getElem_one]
    by_cases hji : j = i
    · subst hji
      cases hx : x.getLsbD j <;> simp_all [BitVec.getLsbD_eq_getElem]
    · split
      · simp only [BitVec.getElem_shiftLeft, BitVec.getElem_one]
        by_cases h2 : j < i
        · simp [h2]
        · have : j - i ≠ 0 := by omega
          simp [this]
      · by_cases h2 : j < i
        · simp [h2]
        · have : j - i ≠ 0 := by omega
          simp [this]
  rw [key, BitVec.testBit_toNat]
  cases hx : x.getLsbD i
  · simp
  · simp only [if_true]
    have : (1#32 <<< i) ≠ 0#32 := by
      intro h0
      have := congrArg (fun v => v.getLsbD i) h0
      simp [h] at this
    simp [bne, this]

/-- `string_to_bits` of bytes is the concatenation of their little-endian bits. -/
theorem stringToBits_eq (s : List Byte) :
    stringToBits s = .ok (s.flatMap fun b => (List.range 8).map fun i => b.toNat.testBit i) := by
  have hstep : ∀ bits, ∀ byte ∈ s,
      (fun (bits : List Bool) (byte : Byte) => do
        let b ← u32ToBits 8 (byte.setWidth 32)
        Except.ok (bits ++ b)) bits byte
      = (Except.ok (bits ++ (List.range 8).map fun i => byte.toNat.testBit i) : Exec _) := by
    intro bits byte _
    have : u32ToBits 8 (byte.setWidth 32)
        = .ok ((List.range 8).map fun i => byte.toNat.testBit i) := by
      unfold u32ToBits
      rw [if_pos (by decide)]
      congr 1
      apply List.map_congr_left
      intro i hi
      rw [u32_bit _ _ (by have := List.mem_range.1 hi; omega)]
      have hb := byte.isLt
      rw [BitVec.toNat_setWidth, Nat.mod_eq_of_lt (by omega)]
    simp only [this, ok_bind]
  unfold stringToBits
  rw [foldE_ok_of_forall hstep]
  congr 1
  have gen : ∀ (l : List Byte) (acc : List Bool),
      l.foldl (fun bits byte => bits ++ (List.range 8).map fun i => byte.toNat.testBit i) acc
        = acc ++ l.flatMap fun b => (List.range 8).map fun i => b.toNat.testBit i := by
    intro l
    induction l with
    | nil => simp
    | cons x xs ih => intro acc; simp [ih]
  simpa using gen s []

/-- `bits_to_u8` inverts the bit expansion of a byte. -/
theorem bitsToU8_bits : ∀ b : Byte,
    bitsToU8 ((List.range 8).map fun i => b.toNat.testBit i) = .ok b := by
  decide +kernel

/-- `bits_to_u8` as the value of eight bits. -/
theorem bitsToU8_ok {bits : List Bool} (h : bits.length = 8) :
    ∃ b : Byte, bitsToU8 bits = .ok b ∧ (List.range 8).map (fun i => b.toNat.testBit i) = bits := by
  match bits, h with
  | [b0, b1, b2, b3, b4, b5, b6, b7], _ =>
    have : ∀ b0 b1 b2 b3 b4 b5 b6 b7 : Bool, ∃ b : Byte,
        bitsToU8 [b0, b1, b2, b3, b4, b5, b6, b7] = .ok b ∧
        (List.range 8).map (fun i => b.toNat.testBit i) = [b0, b1, b2, b3, b4, b5, b6, b7] := by
      intro b0 b1 b2 b3 b4 b5 b6 b7
      refine ⟨_, rfl, ?_⟩
      cases b0 <;> cases b1 <;> cases b2 <;> cases b3 <;> cases b4 <;> cases b5 <;> cases b6 <;>
        cases b7 <;> decide +kernel
    exact this ..

theorem bitsToBitstring_eq_map (bits : List Bool) : bitsToBitstring bits = bits.map bitByte := by
  have gen : ∀ (l : List Bool) (acc : List Byte),
      l.foldl (fun out b => out ++ [bitByte b]) acc = acc ++ l.map bitByte := by
    intro l
    induction l with
    | nil => simp
    | cons x xs ih => intro acc; simp [ih]
  exact gen bits []

theorem bitByte_injective : Function.Injective bitByte := by
  intro a b; cases a <;> cases b <;> simp [bitByte]

theorem bitsToBitstring_append (p q : List Bool) :
    bitsToBitstring (p ++ q) = bitsToBitstring p ++ bitsToBitstring q := by
  simp [bitsToBitstring_eq_map]

/-- The little-endian bits of a byte string. -/
def expBits (s : List Byte) : List Bool :=
  s.flatMap fun b => (List.range 8).map fun i => b.toNat.testBit i

theorem expBits_append (s t : List Byte) : expBits (s ++ t) = expBits s ++ expBits t := by
  simp [expBits]

theorem expBits_length (s : List Byte) : (expBits s).length = 8 * s.length := by
  induction s with
  | nil => rfl
  | cons x xs ih =>
    have : expBits (x :: xs) = (List.range 8).map (fun i => x.toNat.testBit i) ++ expBits xs := rfl
    rw [this, List.length_append, ih]; simp; omega

/-- Every bit vector whose length is a multiple of eight is the expansion of a byte string. -/
theorem exists_expBits (n : Nat) (bits : List Bool) (h : bits.length = 8 * n) :
    ∃ s, s.length = n ∧ expBits s = bits := by
  induction n generalizing bits with
  | zero => exact ⟨[], rfl, by simp at h; simp [h, expBits]⟩
  | succ n ih =>
    obtain ⟨b, -, hb⟩ := bitsToU8_ok (bits := bits.take 8) (by rw [List.length_take]; omega)
    obtain ⟨s, hs, hs'⟩ := ih (bits.drop 8) (by rw [List.length_drop]; omega)
    refine ⟨b :: s, by simp [hs], ?_⟩
    have : expBits (b :: s) = (List.range 8).map (fun i => b.toNat.testBit i) ++ expBits s := rfl
    rw [this, hb, hs', List.take_append_drop]

theorem bitsToString_loop (pre suf acc : List Byte) :
    foldE (fun out b => do
      let byte := ((expBits (pre ++ suf)).drop (8 * b)).take 8
      let ubyte ← bitsToU8 byte
      let s ← unwrapO (fromUtf8Single ubyte)
      (.ok (out ++ s) : Exec (List Byte))) acc (List.range' pre.length suf.length)
    = if ∀ b ∈ suf, b.toNat < 128 then .ok (acc ++ suf) else .error .unwrap := by
  induction suf generalizing pre acc with
  | nil => simp
  | cons x xs ih =>
    rw [List.length_cons, List.range'_succ, foldE_cons]
    have hchunk : ((expBits (pre ++ x :: xs)).drop (8 * pre.length)).take 8
        = (List.range 8).map fun i => x.toNat.testBit i := by
      rw [expBits_append, List.drop_left' (expBits_length pre)]
      have : expBits (x :: xs) = (List.range 8).map (fun i => x.toNat.testBit i) ++ expBits xs := rfl
      rw [this, List.take_left' (by simp)]
    simp only [hchunk, bitsToU8_bits, ok_bind]
    by_cases hx : x.toNat < 128
    · have := ih (pre ++ [x]) (acc ++ [x])
      simp only [List.append_assoc, List.singleton_append, List.length_append, List.length_cons,
        List.length_nil, Nat.zero_add] at this
      have hu : fromUtf8Single x = some [x] := if_pos hx
      simp only [hu, unwrapO_some, ok_bind]
      rw [this]
      simp [hx]
    · have h' : ¬ (∀ b ∈ x :: xs, b.toNat < 128) := fun h => hx (h x (by simp))
      have hu : fromUtf8Single x = none := if_neg hx
      rw [if_neg h', hu]
      rfl

theorem bitsToString_expBits (s : List Byte) :
    bitsToString (expBits s) = if ∀ b ∈ s, b.toNat < 128 then .ok s else .error .unwrap := by
  have := bitsToString_loop [] s []
  unfold bitsToString
  rw [if_pos (by rw [expBits_length]; omega)]
  have h8 : (expBits s).length / 8 = s.length := by rw [expBits_length]; omega
  rw [h8, List.range_eq_range']
  simpa using this

theorem expBits_injective {s t : List Byte} (h : expBits s = expBits t) : s = t := by
  induction s generalizing t with
  | nil =>
    have := congrArg List.length h
    rw [expBits_length, expBits_length] at this
    exact (List.length_eq_zero_iff.1 (by rw [List.length_nil] at this; omega)).symm
  | cons x xs ih =>
    cases t with
    | nil =>
      have := congrArg List.length h
      rw [expBits_length, expBits_length] at this
      simp at this
    | cons y ys =>
      have e1 : expBits (x :: xs) = (List.range 8).map (fun i => x.toNat.testBit i) ++ expBits xs := rfl
      have e2 : expBits (y :: ys) = (List.range 8).map (fun i => y.toNat.testBit i) ++ expBits ys := rfl
      rw [e1, e2] at h
      obtain ⟨h1, h2⟩ := List.append_inj h (by simp)
      have hx := bitsToU8_bits x
      rw [h1, bitsToU8_bits y] at hx
      rw [ih h2, Except.ok.inj hx]

end Mastic
