import Verif.Lemmas.LibLemmas
import Mathlib.Data.List.Perm.Basic
import Mathlib.Data.Set.Card
import Mathlib.Tactic.IntervalCases

/-!
# Properties of the library helpers: C13, C15 - C19
-/

namespace Mastic

/-! ## C13: field sampling -/

/-- C13. Sixteen stream bytes (two little-endian `u64`s) become the little-endian 128-bit integer
modulo the prime. -/
theorem C13_field_from_bytes (bs : List Byte) (h : bs.length = 16) :
    fieldFromU64s (leNat (bs.take 8)) (leNat (bs.drop 8)) = ((leNat bs : Nat) : Field128) := by
  have hsplit : leNat bs = leNat (bs.take 8) + 256 ^ 8 * leNat (bs.drop 8) := by
    conv_lhs => rw [← List.take_append_drop 8 bs]
    rw [leNat_append]; simp [h]
  unfold fieldFromU64s
  congr 1
  rw [hsplit]; norm_num; ring

/-- C13. Every field element is hit by exactly one or two of the `2^128` possible inputs, namely by two
exactly when its representative is below `2^128 - p`. -/
theorem C13_field_sampling (x : Field128) :
    {n : Nat | n < 2 ^ 128 ∧ (n : Field128) = x}.ncard
      = if x.val < 2 ^ 128 - fieldModulus then 2 else 1 := by
  have hx : x.val < fieldModulus := ZMod.val_lt x
  have hp : fieldModulus < 2 ^ 128 := by decide
  have hp2 : 2 ^ 128 < 2 * fieldModulus := by decide
  have hp0 : 0 < fieldModulus := by decide
  have key : ∀ n : Nat, n < 2 ^ 128 →
      ((n : Field128) = x ↔ n = x.val ∨ n = x.val + fieldModulus) := by
    intro n hn
    have h1 : (n : Field128) = x ↔ n % fieldModulus = x.val := by
      rw [← ZMod.val_natCast]
      exact ⟨fun h => by rw [h], fun h => ZMod.val_injective _ h⟩
    rw [h1]
    constructor
    · intro h
      have hd := Nat.div_add_mod n fieldModulus
      have : n / fieldModulus < 2 := Nat.div_lt_of_lt_mul (by rw [Nat.mul_comm]; omega)
      generalize n / fieldModulus = q at hd this
      interval_cases q
      · left; omega
      · right; omega
    · rintro (h | h)
      · rw [h, Nat.mod_eq_of_lt hx]
      · rw [h, Nat.add_mod_right, Nat.mod_eq_of_lt hx]
  split
  · have : {n : Nat | n < 2 ^ 128 ∧ (n : Field128) = x} = {x.val, x.val + fieldModulus} := by
      ext n
      simp only [Set.mem_ofPred_eq, Set.mem_insert_iff, Set.mem_singleton_iff]
      constructor
      · rintro ⟨hn, h⟩; exact (key n hn).1 h
      · intro h
        have hn : n < 2 ^ 128 := by rcases h with h | h <;> omega
        exact ⟨hn, (key n hn).2 h⟩
    rw [this, Set.ncard_pair (by omega)]
  · have : {n : Nat | n < 2 ^ 128 ∧ (n : Field128) = x} = {x.val} := by
      ext n
      simp only [Set.mem_ofPred_eq, Set.mem_singleton_iff]
      constructor
      · rintro ⟨hn, h⟩
        rcases (key n hn).1 h with h | h <;> omega
      · intro h
        have hn : n < 2 ^ 128 := by omega
        exact ⟨hn, (key n hn).2 (Or.inl h)⟩
    rw [this, Set.ncard_singleton]

/-- both cases occur -/
example : (0 : Field128).val < 2 ^ 128 - fieldModulus ∧
    ¬ (-1 : Field128).val < 2 ^ 128 - fieldModulus := by decide +kernel

/-! ## C15: strings and bits -/

/-- C15. On ASCII strings the round trip is the identity. -/
theorem C15_roundtrip_ascii (s : List Byte) (h : ∀ b ∈ s, b.toNat < 128) :
    (stringToBits s >>= bitsToString) = .ok s := by
  rw [stringToBits_eq, ok_bind]
  exact (bitsToString_expBits s).trans (if_pos h)

example : ∀ b ∈ ([104#8, 101#8] : List Byte), b.toNat < 128 := by decide

/-- C15. On every other byte string the round trip panics. -/
theorem C15_roundtrip_nonascii (s : List Byte) (h : ∃ b ∈ s, 128 ≤ b.toNat) :
    Panics (stringToBits s >>= bitsToString) := by
  rw [stringToBits_eq, ok_bind]
  refine ⟨.unwrap, (bitsToString_expBits s).trans (if_neg ?_)⟩
  obtain ⟨b, hb, h⟩ := h
  intro hall
  have := hall b hb
  omega

/-- the UTF-8 encoding of `é` -/
example : ∃ b ∈ ([0xC3#8, 0xA9#8] : List Byte), 128 ≤ b.toNat := by decide

/-- C15. `bits_to_string` returns exactly on the bit vectors that are the expansion of an ASCII
string, and then it returns that string. -/
theorem C15_bits_to_string_iff (bits : List Bool) (s : List Byte) :
    bitsToString bits = .ok s ↔ ((∀ b ∈ s, b.toNat < 128) ∧ stringToBits s = .ok bits) := by
  have hs : stringToBits s = .ok (expBits s) := stringToBits_eq s
  rw [hs]
  constructor
  · intro h
    by_cases h8 : bits.length % 8 = 0
    · obtain ⟨t, -, rfl⟩ := exists_expBits (bits.length / 8) bits (by omega)
      rw [bitsToString_expBits] at h
      split at h
      · cases h; exact ⟨by assumption, rfl⟩
      · cases h
    · unfold bitsToString at h
      rw [if_neg h8] at h
      cases h
  · rintro ⟨h, h2⟩
    cases h2
    rw [bitsToString_expBits, if_pos h]

/-- C15. `bits_to_string` panics exactly when the length is not a multiple of eight or some group of
eight bits (least significant first) has its top bit set. -/
theorem C15_bits_to_string_panics_iff (bits : List Bool) :
    Panics (bitsToString bits) ↔
      (bits.length % 8 ≠ 0 ∨ ∃ k, 8 * k + 7 < bits.length ∧ bits[8 * k + 7]? = some true) := by
  by_cases h8 : bits.length % 8 = 0
  · obtain ⟨t, ht, rfl⟩ := exists_expBits (bits.length / 8) bits (by omega)
    rw [bitsToString_expBits]
    have hget : ∀ (t : List Byte) (k : Nat), (hk : k < t.length) →
        (expBits t)[8 * k + 7]? = some (decide (128 ≤ t[k].toNat)) := by
      intro t
      induction t with
      | nil => intro k hk; simp at hk
      | cons x xs ih =>
        intro k hk
        have e : expBits (x :: xs) = (List.range 8).map (fun i => x.toNat.testBit i) ++ expBits xs :=
          rfl
        rw [e]
        cases k with
        | zero =>
          rw [List.getElem?_append_left (by simp)]
          simp only [Nat.mul_zero, Nat.zero_add, List.getElem_cons_zero]
          exact (by decide +kernel : ∀ x : Byte,
            ((List.range 8).map fun i => x.toNat.testBit i)[7]? = some (decide (128 ≤ x.toNat))) x
        | succ k =>
          rw [List.getElem?_append_right (by simp; omega)]
          have : 8 * (k + 1) + 7 - ((List.range 8).map fun i => x.toNat.testBit i).length
              = 8 * k + 7 := by simp; omega
          rw [this, ih k (by simpa using hk)]; rfl
    have hlen := expBits_length t
    constructor
    · rintro ⟨p, hp⟩
      right
      split at hp
      · cases hp
      · rename_i hno
        push Not at hno
        obtain ⟨b, hb, h128⟩ := hno
        obtain ⟨k, hk, rfl⟩ := List.getElem_of_mem hb
        exact ⟨k, by omega, by rw [hget t k hk]; simpa using h128⟩
    · rintro (h | ⟨k, hk, h⟩)
      · exact absurd h8 h
      · refine ⟨.unwrap, if_neg ?_⟩
        intro hall
        have hk' : k < t.length := by omega
        rw [hget t k hk'] at h
        have := hall t[k] (List.getElem_mem hk')
        simp at h; omega
  · have : Panics (bitsToString bits) := ⟨.assertion, by unfold bitsToString; rw [if_neg h8]⟩
    simp [this, h8]

/-! ## C16: `u32_to_bits` -/

/-- C16. It panics exactly for more than 32 bits. -/
theorem C16_panics_iff (n : Nat) (x : BitVec 32) : Panics (u32ToBits n x) ↔ 32 < n := by
  unfold u32ToBits Panics
  by_cases h : n ≤ 32
  · simp [h]
  · simp [h]; omega

/-- C16. Otherwise the result has `n` entries, the `i`-th being bit `i` of the number. -/
theorem C16_bits (n : Nat) (x : BitVec 32) (h : n ≤ 32) :
    ∃ bits, u32ToBits n x = .ok bits ∧ bits.length = n ∧
      ∀ i < n, bits[i]? = some (x.toNat.testBit i) := by
  refine ⟨_, by unfold u32ToBits; rw [if_pos h], by simp, ?_⟩
  intro i hi
  simp only [List.getElem?_map, List.getElem?_range hi, Option.map_some]
  rw [u32_bit _ _ (by omega)]

/-- C16. It is injective on numbers below `2^n`. -/
theorem C16_injective (n : Nat) (x y : BitVec 32) (h : n ≤ 32) (hx : x.toNat < 2 ^ n)
    (hy : y.toNat < 2 ^ n) (he : u32ToBits n x = u32ToBits n y) : x = y := by
  obtain ⟨bx, ex, -, hbx⟩ := C16_bits n x h
  obtain ⟨by_, ey, -, hby⟩ := C16_bits n y h
  rw [ex, ey] at he
  cases he
  apply BitVec.eq_of_toNat_eq
  apply Nat.eq_of_testBit_eq
  intro i
  by_cases hi : i < n
  · have := (hbx i hi).symm.trans (hby i hi); simpa using this
  · have hpow : 2 ^ n ≤ 2 ^ i := Nat.pow_le_pow_right (by decide) (by omega)
    rw [Nat.testBit_lt_two_pow (by omega), Nat.testBit_lt_two_pow (by omega)]

example : ∃ x y : BitVec 32, x.toNat < 2 ^ 5 ∧ y.toNat < 2 ^ 5 ∧ x ≠ y ∧
    u32ToBits 5 x ≠ u32ToBits 5 y := ⟨3, 9, by decide, by decide, by decide, by
  intro h; exact absurd (C16_injective 5 3 9 (by decide) (by decide) (by decide) h) (by decide)⟩

/-! ## C17: path strings -/

/-- C17. The path string has one ASCII character per bit: `0` for false, `1` for true. -/
theorem C17_chars (bits : List Bool) :
    (bitsToBitstring bits).length = bits.length ∧
      ∀ i : Nat, (bitsToBitstring bits)[i]? = (bits[i]?).map fun b => if b then 0x31#8 else 0x30#8 := by
  rw [bitsToBitstring_eq_map]
  refine ⟨by simp, fun i => ?_⟩
  rw [List.getElem?_map]
  congr 1

/-- C17. Different paths have different path strings. -/
theorem C17_injective (p q : List Bool) (h : bitsToBitstring p = bitsToBitstring q) : p = q := by
  rw [bitsToBitstring_eq_map, bitsToBitstring_eq_map] at h
  exact (List.map_injective_iff.2 bitByte_injective) h

/-- C17. The string an aggregator hashes for a child of a node (parent's path string plus one
character) is the string of the extended path; extending step by step from the empty string, as the
client and the prefix tree do, gives the same. -/
theorem C17_extend (p : List Bool) (b : Bool) :
    bitsToBitstring p ++ [if b then 0x31#8 else 0x30#8] = bitsToBitstring (p ++ [b]) ∧
      bitsToBitstring ([] : List Bool) = [] := by
  refine ⟨?_, rfl⟩
  rw [bitsToBitstring_append]; cases b <;> rfl

/-- C17. No path string followed by a 16-byte seed equals another one of different content: the
hashed inputs `path ‖ seed` are injective in both parts. -/
theorem C17_hash_input_injective (p q : List Bool) (s t : Block)
    (h : bitsToBitstring p ++ s.toList = bitsToBitstring q ++ t.toList) : p = q ∧ s = t := by
  have hl := congrArg List.length h
  simp only [List.length_append, (C17_chars _).1, Vector.length_toList] at hl
  obtain ⟨h1, h2⟩ := List.append_inj h (by rw [(C17_chars p).1, (C17_chars q).1]; omega)
  exact ⟨C17_injective p q h1, Vector.toList_inj.1 h2⟩

/-! ## C18: vector share arithmetic -/

/-- C18. `vec_add` changes exactly the overlapping entries and keeps the length. -/
theorem C18_vec_add (a b : List Field128) :
    (vecAdd a b).length = a.length ∧
      (∀ (i : Nat) x y, a[i]? = some x → b[i]? = some y → (vecAdd a b)[i]? = some (x + y)) ∧
      (∀ i : Nat, b.length ≤ i → (vecAdd a b)[i]? = a[i]?) := by
  refine ⟨vecAdd_length a b, ?_, ?_⟩
  · intro i x y hx hy; rw [vecAdd_getElem?, hx, hy]
  · intro i hi; rw [vecAdd_getElem?, List.getElem?_eq_none hi]; cases a[i]? <;> rfl

/-- C18. `vec_sub` likewise. -/
theorem C18_vec_sub (a b : List Field128) :
    (vecSub a b).length = a.length ∧
      (∀ (i : Nat) x y, a[i]? = some x → b[i]? = some y → (vecSub a b)[i]? = some (x - y)) ∧
      (∀ i : Nat, b.length ≤ i → (vecSub a b)[i]? = a[i]?) := by
  refine ⟨vecSub_length a b, ?_, ?_⟩
  · intro i x y hx hy; rw [vecSub_getElem?, hx, hy]
  · intro i hi; rw [vecSub_getElem?, List.getElem?_eq_none hi]; cases a[i]? <;> rfl

/-- C18. Subtraction undoes addition and vice versa; negation negates every entry and is an
involution. -/
theorem C18_inverse (a b : List Field128) :
    vecSub (vecAdd a b) b = a ∧ vecAdd (vecSub a b) b = a ∧ vecNeg (vecNeg a) = a ∧
      (∀ i : Nat, (vecNeg a)[i]? = (a[i]?).map fun x => -x) :=
  ⟨vecSub_vecAdd a b, vecAdd_vecSub a b, vecNeg_vecNeg a, vecNeg_getElem? a⟩

/-- C18. `xor_in_place` changes exactly the overlapping prefix and is its own inverse. -/
theorem C18_xor_in_place (a b : List Byte) :
    (xorInPlace a b).length = a.length ∧
      (∀ (i : Nat) x y, a[i]? = some x → b[i]? = some y → (xorInPlace a b)[i]? = some (x ^^^ y)) ∧
      (∀ i : Nat, b.length ≤ i → (xorInPlace a b)[i]? = a[i]?) ∧
      xorInPlace (xorInPlace a b) b = a := by
  refine ⟨xorInPlace_length a b, ?_, ?_, xorInPlace_self_inverse a b⟩
  · intro i x y hx hy; rw [xorInPlace_getElem?, hx, hy]
  · intro i hi; rw [xorInPlace_getElem?, List.getElem?_eq_none hi]; cases a[i]? <;> rfl

/-- C18. `xor_vec` and `xor_three_vecs` return vectors as long as the shortest operand, holding the
entrywise XOR. -/
theorem C18_xor_vec (a b c : List Byte) :
    (xorVec a b).length = min a.length b.length ∧
      (∀ (i : Nat) x y, a[i]? = some x → b[i]? = some y → (xorVec a b)[i]? = some (x ^^^ y)) ∧
      (xorThreeVecs a b c).length = min (min a.length b.length) c.length ∧
      (∀ (i : Nat) x y z, a[i]? = some x → b[i]? = some y → c[i]? = some z →
        (xorThreeVecs a b c)[i]? = some (x ^^^ y ^^^ z)) := by
  refine ⟨by simp [xorVec], ?_, by simp [xorThreeVecs], ?_⟩
  · intro i x y hx hy; simp [xorVec, List.getElem?_zipWith, hx, hy]
  · intro i x y z hx hy hz
    simp [xorThreeVecs, List.getElem?_zipWith, List.zip, hx, hy, hz]

/-- operands of different lengths -/
example : vecAdd ([1, 2, 3] : List Field128) [10] = [11, 2, 3] ∧
    vecAdd ([1] : List Field128) [10, 20] = [11] := by decide +kernel

/-! ## C19: `take` -/

/-- C19. Out of range: `None`, vector unchanged. -/
theorem C19_take_none {α : Type} (v : List α) (i : Nat) (h : v.length ≤ i) :
    takeAt v i = (none, v) := by
  unfold takeAt
  rw [List.getElem?_eq_none h]

/-- C19. In range: the `i`-th element is returned; the rest is a permutation of the other elements,
and its entries are the old ones except that position `i` now holds the old last element. -/
theorem C19_take_some {α : Type} (v : List α) (i : Nat) (h : i < v.length) :
    ∃ rest, takeAt v i = (some v[i], rest) ∧ rest.length + 1 = v.length ∧
      (v[i] :: rest).Perm v ∧
      (∀ j, j + 1 < v.length → rest[j]? = if j = i then v.getLast? else v[j]?) := by
  have hne : v ≠ [] := by rintro rfl; simp at h
  refine ⟨swapRemove v i (v.getLast hne), ?_, ?_, ?_, ?_⟩
  · unfold takeAt
    rw [List.getElem?_eq_getElem h, List.getLast?_eq_some_getLast hne]
  · simp [swapRemove]; omega
  · obtain ⟨pre, suf, hv, hpre⟩ : ∃ pre suf, v = pre ++ v[i] :: suf ∧ pre.length = i := by
      refine ⟨v.take i, v.drop (i + 1), ?_, by simp; omega⟩
      rw [List.getElem_cons_drop, List.take_append_drop]
    generalize v[i] = a at hv
    subst hv hpre
    rcases List.eq_nil_or_concat suf with rfl | ⟨suf', l, hsuf⟩
    · simp [swapRemove]
      exact (List.perm_append_singleton a pre).symm
    · rw [List.concat_eq_append] at hsuf
      subst hsuf
      have : swapRemove (pre ++ a :: (suf' ++ [l])) pre.length
          ((pre ++ a :: (suf' ++ [l])).getLast hne) = pre ++ l :: suf' := by
        simp [swapRemove, List.dropLast_cons_of_ne_nil]
      rw [this]
      have h1 : (a :: (pre ++ l :: suf')).Perm (pre ++ a :: l :: suf') := by
        have := (List.perm_middle (a := a) (l₁ := pre) (l₂ := l :: suf')).symm
        exact this
      refine h1.trans (List.Perm.append_left pre (List.Perm.cons a ?_))
      exact (List.perm_append_singleton l suf').symm
  · intro j hj
    unfold swapRemove
    rw [List.getElem?_dropLast, if_pos (by simp; omega), List.getElem?_set]
    by_cases hji : j = i
    · subst hji; simp [h, List.getLast?_eq_some_getLast hne]
    · rw [if_neg (Ne.symm hji), if_neg hji]

example : takeAt [10, 20, 30, 40] 1 = (some 20, [10, 40, 30]) := by decide

end Mastic
