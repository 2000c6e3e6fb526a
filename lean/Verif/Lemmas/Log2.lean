import Verif.Model.Log2
import Verif.Spec.Log2
import Verif.Lemmas.Search
import Mathlib.Analysis.Convex.SpecificFunctions.Basic
import Mathlib.Analysis.Complex.ExponentialBounds
import Mathlib.Data.Nat.Log

/-!
# Lemmas on the `f32` logarithm
-/

namespace Mastic

theorem roundEven_int (z : ℤ) : roundEven z = z := by
  unfold roundEven
  rw [Int.floor_intCast, if_pos (by norm_num)]

theorem le_roundEven {q : ℚ} {z : ℤ} (h : (z : ℚ) ≤ q) : z ≤ roundEven q := by
  have := Int.le_floor.2 h
  unfold roundEven
  split_ifs <;> omega

theorem roundEven_le {q : ℚ} {z : ℤ} (h : q ≤ z) : roundEven q ≤ z := by
  have hf : ⌊q⌋ ≤ z := Int.cast_le.1 ((Int.floor_le q).trans h)
  unfold roundEven
  by_cases he : ⌊q⌋ = z
  · have : q - ⌊q⌋ < 1 / 2 := by rw [he]; linarith
    rw [if_pos this]; omega
  · split_ifs <;> omega

/-! ### The values of `f32` -/

theorem isF32_zero : Spec.IsF32 0 := ⟨by norm_num, 0, 0, by norm_num, by norm_num, by simp⟩

theorem isF32_nat {k : Nat} (h : k < 2 ^ 24) : Spec.IsF32 k := by
  refine ⟨?_, k, 0, ?_, by norm_num, by simp⟩
  · rw [abs_of_nonneg (by positivity)]
    calc (k : ℚ) < 2 ^ 24 := by exact_mod_cast h
      _ ≤ 2 ^ 128 := by norm_num
  · rw [abs_of_nonneg (by positivity)]
    exact_mod_cast h

/-- The number above `k` at the distance of the numbers between 16 and 32. -/
theorem isF32_next {k : Nat} (h : k < 31) : Spec.IsF32 (k + 2 ^ (-19 : ℤ)) := by
  have hk : (k : ℚ) ≤ 30 := by exact_mod_cast Nat.le_of_lt_succ h
  refine ⟨?_, k * 2 ^ 19 + 1, -19, ?_, by norm_num, ?_⟩
  · rw [abs_of_nonneg (by positivity)]
    calc (k : ℚ) + 2 ^ (-19 : ℤ) ≤ 30 + 1 := by
          refine add_le_add hk ?_
          norm_num
      _ < 2 ^ 128 := by norm_num
  · rw [abs_of_nonneg (by positivity)]
    have : (k : ℤ) ≤ 30 := by exact_mod_cast Nat.le_of_lt_succ h
    omega
  · push_cast
    rw [add_mul, mul_assoc, one_mul]
    norm_num

/-- Above 16 the values of `f32` are multiples of 2^-19. -/
theorem isF32_gap {y : ℚ} (h : Spec.IsF32 y) {k : Nat} (hk : 16 ≤ k) (h0 : (k : ℚ) < y) :
    (k : ℚ) + 2 ^ (-19 : ℤ) ≤ y := by
  obtain ⟨-, a, e, ha, -, rfl⟩ := h
  have hp : (0 : ℚ) < 2 ^ e := by positivity
  have h16 : (2 : ℚ) ^ (4 : ℤ) < 2 ^ (24 + e) := by
    have h1 : (a : ℚ) < 2 ^ (24 : ℤ) := by
      have := (le_abs_self a).trans_lt ha
      exact_mod_cast this
    have h2 : (2 : ℚ) ^ (4 : ℤ) ≤ k := by
      have : ((16 : Nat) : ℚ) ≤ k := by exact_mod_cast hk
      norm_num at this ⊢
      exact this
    calc (2 : ℚ) ^ (4 : ℤ) ≤ k := h2
      _ < a * 2 ^ e := h0
      _ < 2 ^ (24 : ℤ) * 2 ^ e := mul_lt_mul_of_pos_right h1 hp
      _ = 2 ^ (24 + e) := by rw [zpow_add₀ (by norm_num)]
  have he := (zpow_lt_zpow_iff_right₀ (by norm_num : (1 : ℚ) < 2)).1 h16
  obtain ⟨t, ht⟩ := Int.eq_ofNat_of_zero_le (show 0 ≤ e + 19 by omega)
  have e1 : (2 : ℚ) ^ e = 2 ^ t * 2 ^ (-19 : ℤ) := by
    rw [← zpow_natCast, ← zpow_add₀ (by norm_num)]
    congr 1
    omega
  have h19 : (0 : ℚ) < 2 ^ (-19 : ℤ) := by positivity
  have e2 : (k : ℚ) = (k * 2 ^ 19 : ℤ) * 2 ^ (-19 : ℤ) := by
    push_cast
    rw [mul_assoc]
    norm_num
  rw [e1, ← mul_assoc, e2] at h0 ⊢
  have h3 : ((k * 2 ^ 19 : ℤ) : ℚ) < ((a * 2 ^ t : ℤ) : ℚ) := by
    push_cast at h0 ⊢
    exact lt_of_mul_lt_mul_right h0 h19.le
  have h4 : (k * 2 ^ 19 : ℤ) + 1 ≤ a * 2 ^ t := Int.cast_lt.1 h3
  have h5 : (((k * 2 ^ 19 : ℤ) + 1 : ℤ) : ℚ) ≤ ((a * 2 ^ t : ℤ) : ℚ) := Int.cast_le.2 h4
  have := mul_le_mul_of_nonneg_right h5 h19.le
  push_cast at this ⊢
  linarith

theorem finite_isF32 : {y : ℚ | Spec.IsF32 y}.Finite := by
  refine Set.Finite.subset (((Set.finite_Icc (-2 ^ 24 : ℤ) (2 ^ 24)).prod
    (Set.finite_Icc (-149 : ℤ) 128)).image fun ae => (ae.1 : ℚ) * 2 ^ ae.2) ?_
  rintro y ⟨hy, a, e, ha, he, rfl⟩
  by_cases h0 : a = 0
  · exact ⟨(0, 0), ⟨by norm_num, by norm_num⟩, by simp [h0]⟩
  · refine ⟨(a, e), ⟨abs_le.1 ha.le, he, ?_⟩, rfl⟩
    have hp : (0 : ℚ) < 2 ^ e := by positivity
    rw [abs_mul, abs_of_pos hp] at hy
    have h1 : (1 : ℚ) ≤ |(a : ℚ)| := by
      have := Int.one_le_abs h0
      rw [← Int.cast_abs]
      exact_mod_cast this
    have h2 : (2 : ℚ) ^ e < 2 ^ (128 : ℤ) := by
      calc (2 : ℚ) ^ e = 1 * 2 ^ e := (one_mul _).symm
        _ ≤ |(a : ℚ)| * 2 ^ e := mul_le_mul_of_nonneg_right h1 hp.le
        _ < 2 ^ (128 : ℤ) := hy
    exact ((zpow_lt_zpow_iff_right₀ (by norm_num : (1 : ℚ) < 2)).1 h2).le

/-- There is a correctly rounded logarithm. -/
theorem nearest_exists : ∃ log2f, Spec.NearestLog2 log2f := by
  have h := fun x : ℚ => Set.exists_min_image _ (fun y : ℚ => |(y : ℝ) - Real.logb 2 x|) finite_isF32
    ⟨0, isF32_zero⟩
  choose f hf using h
  exact ⟨f, fun x _ _ => ⟨(hf x).1, fun y hy => (hf x).2 y hy⟩⟩

theorem nearest_faithful {f : ℚ → ℚ} (h : Spec.NearestLog2 f) : Spec.FaithfulLog2 f := by
  intro x hx h32
  obtain ⟨h1, h2⟩ := h x hx h32
  refine ⟨h1, fun y hy => ⟨fun hle => ?_, fun hle => ?_⟩⟩
  · by_contra hc
    push Not at hc
    have hc' : (f x : ℝ) < y := by exact_mod_cast hc
    have := h2 y hy
    rw [abs_of_nonpos (by linarith), abs_of_nonpos (by linarith)] at this
    linarith
  · by_contra hc
    push Not at hc
    have hc' : (y : ℝ) < f x := by exact_mod_cast hc
    have := h2 y hy
    rw [abs_of_nonneg (by linarith), abs_of_nonneg (by linarith)] at this
    linarith

/-! ### The conversion of the number of clients -/

theorem log_natCast_rat (m : Nat) : Int.log 2 (m : ℚ) = Nat.log 2 m := Int.log_natCast ..

theorem ofNat_exact {m : Nat} (h : m < 2 ^ 24) : F32.ofNat m = m := by
  unfold F32.ofNat
  split
  · rename_i h0
    simp [h0]
  · rename_i h0
    rw [log_natCast_rat]
    have hl : Nat.log 2 m ≤ 23 := Nat.le_of_lt_succ (Nat.log_lt_of_lt_pow h0 h)
    obtain ⟨t, ht⟩ := Nat.exists_eq_add_of_le hl
    have e : ((Nat.log 2 m : ℤ) - 23) = -(t : ℤ) := by omega
    rw [e, zpow_neg, zpow_natCast, div_inv_eq_mul]
    have : (m : ℚ) * 2 ^ t = ((m * 2 ^ t : ℤ) : ℚ) := by push_cast; rfl
    rw [this, roundEven_int]
    push_cast
    rw [mul_assoc, mul_inv_cancel₀ (by positivity), mul_one]

/-- A number just above a power of two. -/
theorem ofNat_above {k j : Nat} (hj : j < 2 ^ k) :
    F32.ofNat (2 ^ k + j) = roundEven ((2 ^ k + j) / 2 ^ ((k : ℤ) - 23)) * 2 ^ ((k : ℤ) - 23) := by
  have hl : Nat.log 2 (2 ^ k + j) = k := by
    rw [Nat.log_eq_iff (.inr ⟨by omega, by positivity⟩)]
    exact ⟨by omega, by rw [pow_succ]; omega⟩
  unfold F32.ofNat
  rw [if_neg (by positivity), log_natCast_rat, hl]
  push_cast
  rfl

/-- Distances of less than half a unit are lost, and so is the tie. -/
theorem ofNat_lost {k j : Nat} (hk : 24 ≤ k) (hj : j ≤ 2 ^ (k - 24)) : F32.ofNat (2 ^ k + j) = 2 ^ k := by
  have hjk : j < 2 ^ k := hj.trans_lt (Nat.pow_lt_pow_right (by omega) (by omega))
  rw [ofNat_above hjk]
  obtain ⟨t, rfl⟩ := Nat.exists_eq_add_of_le hk
  have e : (((24 + t : Nat) : ℤ) - 23) = ((t + 1 : Nat) : ℤ) := by push_cast; ring
  have hp : (0 : ℚ) < 2 ^ (t + 1) := by positivity
  rw [Nat.add_sub_cancel_left] at hj
  have hjq : (j : ℚ) ≤ 2 ^ t := by exact_mod_cast hj
  have e2 : ((2 : ℚ) ^ (24 + t) + j) / 2 ^ (t + 1) = 2 ^ 23 + j / 2 ^ (t + 1) := by
    rw [add_div]
    congr 1
    rw [div_eq_iff hp.ne', ← pow_add]
    congr 1
    omega
  have h0 : (0 : ℚ) ≤ j / 2 ^ (t + 1) := by positivity
  have h1 : (j : ℚ) / 2 ^ (t + 1) ≤ 1 / 2 := by
    rw [div_le_iff₀ hp, pow_succ]
    linarith
  rw [e, zpow_natCast, e2]
  have hfl : ⌊(2 : ℚ) ^ 23 + j / 2 ^ (t + 1)⌋ = 2 ^ 23 := by
    rw [Int.floor_eq_iff]
    push_cast
    exact ⟨by linarith, by linarith⟩
  have hr : roundEven ((2 : ℚ) ^ 23 + j / 2 ^ (t + 1)) = 2 ^ 23 := by
    unfold roundEven
    rw [hfl]
    have : (2 : ℚ) ^ 23 + j / 2 ^ (t + 1) - ((2 ^ 23 : ℤ) : ℚ) = j / 2 ^ (t + 1) := by push_cast; ring
    rw [this]
    split_ifs with a b c
    · rfl
    · exact absurd b (not_lt.2 h1)
    · rfl
    · norm_num at c
  rw [hr, Int.cast_pow, Int.cast_ofNat, ← pow_add]
  congr 1
  omega

/-- The value converted from a number just above a power of two. -/
theorem ofNat_near {k j : Nat} (hk : 21 ≤ k) (hk2 : k < 64) (hj : j ≤ 2 ^ (k - 21)) :
    2 ^ k ≤ F32.ofNat (2 ^ k + j) ∧ F32.ofNat (2 ^ k + j) ≤ 2 ^ k * (1 + 2 ^ (-21 : ℤ)) ∧
      Spec.IsF32 (F32.ofNat (2 ^ k + j)) := by
  have hjk : j < 2 ^ k := hj.trans_lt (Nat.pow_lt_pow_right (by omega) (by omega))
  rw [ofNat_above hjk]
  have hp : (0 : ℚ) < 2 ^ ((k : ℤ) - 23) := by positivity
  have ek : (2 : ℚ) ^ k = 2 ^ 23 * 2 ^ ((k : ℤ) - 23) := by
    rw [← zpow_natCast, ← zpow_natCast, ← zpow_add₀ (by norm_num)]
    congr 1
    push_cast
    ring
  have hjq : (j : ℚ) ≤ 4 * 2 ^ ((k : ℤ) - 23) := by
    have : (j : ℚ) ≤ 2 ^ (k - 21) := by exact_mod_cast hj
    refine this.trans_eq ?_
    rw [show (4 : ℚ) = 2 ^ (2 : ℤ) by norm_num, ← zpow_natCast, ← zpow_add₀ (by norm_num)]
    congr 1
    omega
  set u : ℚ := 2 ^ ((k : ℤ) - 23) with hu
  have hlo : (2 ^ 23 : ℤ) ≤ roundEven ((2 ^ k + j) / u) := by
    apply le_roundEven
    push_cast
    rw [le_div_iff₀ hp, ek]
    have : (0 : ℚ) ≤ j := by positivity
    linarith
  have hhi : roundEven ((2 ^ k + j) / u) ≤ 2 ^ 23 + 4 := by
    apply roundEven_le
    push_cast
    rw [div_le_iff₀ hp, ek]
    linarith
  set r := roundEven ((2 ^ k + j) / u) with hr
  have hloq : (2 : ℚ) ^ 23 ≤ r := by exact_mod_cast hlo
  have hhiq : (r : ℚ) ≤ 2 ^ 23 + 4 := by exact_mod_cast hhi
  have hub : u ≤ 2 ^ 41 := by
    rw [hu, ← zpow_natCast]
    exact zpow_le_zpow_right₀ (by norm_num) (by push_cast; omega)
  refine ⟨?_, ?_, ?_, r, (k : ℤ) - 23, ?_, by omega, rfl⟩
  · rw [ek]
    exact mul_le_mul_of_nonneg_right hloq hp.le
  · rw [ek]
    have : (r : ℚ) * u ≤ (2 ^ 23 + 4) * u := mul_le_mul_of_nonneg_right hhiq hp.le
    refine this.trans_eq ?_
    norm_num
    ring
  · have h0 : (0 : ℚ) ≤ r := le_trans (by positivity) hloq
    rw [abs_of_nonneg (mul_nonneg h0 hp.le)]
    calc (r : ℚ) * u ≤ (2 ^ 23 + 4) * 2 ^ 41 := mul_le_mul hhiq hub hp.le (by norm_num)
      _ < 2 ^ 128 := by norm_num
  · rw [abs_of_nonneg (by omega)]
    omega

/-! ### Logarithms near a power of two -/

theorem logb_pow_two (k : Nat) : Real.logb 2 ((2 : ℝ) ^ k) = k := by
  rw [Real.logb_pow, Real.logb_self_eq_one (by norm_num), mul_one]

theorem lt_logb_one_add {t : ℝ} (h0 : 0 < t) (h1 : t < 1) : t < Real.logb 2 (1 + t) := by
  rw [Real.lt_logb_iff_rpow_lt (by norm_num) (by linarith)]
  have := rpow_one_add_lt_one_add_mul_self (s := 1) (by norm_num) (by norm_num) h0 h1
  norm_num at this
  linarith

theorem logb_one_add_lt {t : ℝ} (h0 : 0 < t) : Real.logb 2 (1 + t) < 2 * t := by
  have h2 := Real.log_two_gt_d9
  have := Real.log_lt_sub_one_of_pos (x := 1 + t) (by linarith) (by linarith)
  rw [Real.logb, div_lt_iff₀ (by linarith)]
  nlinarith

/-- The logarithm of a number above `2 ^ k`. -/
theorem logb_above {k : Nat} {t : ℝ} (h : 0 ≤ t) :
    Real.logb 2 (2 ^ k * (1 + t)) = k + Real.logb 2 (1 + t) := by
  rw [Real.logb_mul (by positivity) (by linarith), logb_pow_two]

/-! ### The computed logarithm -/

theorem ceil_of_bounds {q : ℚ} {K : Nat} (h0 : (K : ℚ) - 1 < q) (h1 : q ≤ K) : ⌈q⌉.toNat = K := by
  have : ⌈q⌉ = (K : ℤ) := by
    rw [Int.ceil_eq_iff]
    push_cast
    exact ⟨h0, h1⟩
  rw [this, Int.toNat_natCast]

/-- The computed logarithm is at most the exact one rounded up. -/
theorem log2f_le {f : ℚ → ℚ} (hf : Spec.FaithfulLog2 f) {m K : Nat} (h0 : 0 < m) (h : m ≤ 2 ^ K) (hm : m < 2 ^ 24)
    (hK : K < 2 ^ 24) : f m ≤ K := by
  refine (hf m (by exact_mod_cast h0) (isF32_nat hm)).2 K (isF32_nat hK) |>.2 ?_
  have h1 : (m : ℝ) ≤ 2 ^ K := by exact_mod_cast h
  have := Real.logb_le_logb_of_le (b := 2) (by norm_num) (by exact_mod_cast h0) h1
  rw [logb_pow_two] at this
  simpa using this

/-- The exact logarithm is above the next smaller integer by at least the relative distance. -/
theorem lt_logb {m k : Nat} (h : 2 ^ k < m) (hk : 0 < k) : (k : ℝ) + 2 ^ (-(k : ℤ)) < Real.logb 2 m := by
  have h1 : (2 : ℝ) ^ k * (1 + 2 ^ (-(k : ℤ))) ≤ m := by
    rw [mul_add, mul_one, zpow_neg, zpow_natCast, mul_inv_cancel₀ (by positivity)]
    exact_mod_cast h
  have hp : (0 : ℝ) < 2 ^ (-(k : ℤ)) := by positivity
  have hp1 : (2 : ℝ) ^ (-(k : ℤ)) < 1 := by
    rw [zpow_neg, zpow_natCast]
    exact inv_lt_one_of_one_lt₀ (one_lt_pow₀ (by norm_num) (by omega))
  have h2 := Real.logb_le_logb_of_le (b := 2) (by norm_num) (by positivity) h1
  rw [logb_above hp.le] at h2
  have := lt_logb_one_add hp hp1
  linarith

theorem pow_neg_le {k : Nat} {j : ℤ} (h : (k : ℤ) ≤ j) : (2 : ℝ) ^ (-j) ≤ 2 ^ (-(k : ℤ)) :=
  zpow_le_zpow_right₀ (by norm_num) (by omega)

/-- The number of included clients is between two powers of two. -/
theorem clog_bounds {m : Nat} (h : 1 < m) : ∃ k, Nat.clog 2 m = k + 1 ∧ 2 ^ k < m ∧ m ≤ 2 ^ (k + 1) := by
  have hp := Nat.clog_pos (b := 2) (by omega) h
  obtain ⟨k, hk⟩ := Nat.exists_eq_add_of_lt hp
  refine ⟨k, by omega, ?_, ?_⟩
  · exact (Nat.lt_clog_iff_pow_lt (by omega)).1 (by omega)
  · rw [show k + 1 = Nat.clog 2 m by omega]
    exact Nat.le_pow_clog (by omega) m

theorem log2f_small {f : ℚ → ℚ} (hf : Spec.FaithfulLog2 f) {m : Nat} (hm : m < 2 ^ 24)
    (hlow : ∀ k : Nat, 0 < k → 2 ^ k < m → m ≤ 2 ^ (k + 1) → (k : ℚ) < f m) :
    ceilLog2F32 f m = Nat.clog 2 m := by
  unfold ceilLog2F32
  split
  · rename_i h0
    simp [h0]
  · rename_i h0
    rw [ofNat_exact hm]
    by_cases h1 : m = 1
    · subst h1
      have e : f (1 : Nat) = (0 : Nat) := by
        obtain ⟨a, b⟩ := (hf (1 : Nat) (by norm_num) (isF32_nat hm)).2 (0 : Nat) (isF32_nat (by norm_num))
        exact le_antisymm (b (by simp)) (a (by simp))
      rw [e]
      simp
    · obtain ⟨k, hk, hlo, hhi⟩ := clog_bounds (m := m) (by omega)
      have hk24 : k + 1 < 2 ^ 24 := by
        have : 2 ^ k < 2 ^ 24 := hlo.trans hm
        have := (Nat.pow_lt_pow_iff_right (by omega : 1 < 2)).1 this
        omega
      rw [hk]
      refine ceil_of_bounds ?_ (log2f_le hf (by omega) hhi hm hk24)
      rw [Nat.cast_add_one, add_sub_cancel_right]
      rcases Nat.eq_zero_or_pos k with rfl | hkp
      · -- two clients
        have hm2 : m = 2 := by omega
        subst hm2
        have := ((hf (2 : Nat) (by norm_num) (isF32_nat hm)).2 (1 : Nat) (isF32_nat (by norm_num))).1 (by simp)
        push_cast at this ⊢
        linarith
      · exact hlow k hkp hlo hhi

/-! ### The root of a level -/

variable {P : Prims}

/-- The root that a server sends for a whole level depends on the first `2 ^ K` digests only. -/
theorem merkleRoots_take {l l' : List Block} {K : Nat} (hK : P.ceilLog2 l.length = K) (hl : l.length = l'.length)
    (h : ∀ p < 2 ^ K, l[p]? = l'[p]?) (hne : l ≠ []) :
    merkleRoots P l 1 [] false = merkleRoots P l' 1 [] false := by
  have hne' : l' ≠ [] := by
    rw [← List.length_pos_iff] at hne ⊢
    omega
  rw [merkleRoots_whole hK hne, merkleRoots_whole (hl ▸ hK) hne']
  have : chunkAt l (2 ^ K) 0 = chunkAt l' (2 ^ K) 0 := by
    apply List.ext_getElem?
    intro i
    unfold chunkAt
    simp only [List.getElem?_take, List.getElem?_drop, Nat.zero_mul, Nat.zero_add]
    split
    · rename_i hi
      exact h i hi
    · rfl
  rw [rootAt, rootAt, this]

end Mastic
