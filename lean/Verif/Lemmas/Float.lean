import Verif.Model.Float
import Mathlib.Tactic.Linarith
import Mathlib.Tactic.NormNum
import Mathlib.Tactic.Positivity
import Mathlib.Tactic.Ring
import Mathlib.Tactic.FieldSimp

namespace Mastic

theorem roundEven_int (z : ℤ) : roundEven z = z := by
  unfold roundEven
  simp

theorem roundEven_mono {a b : ℚ} (h : a ≤ b) : roundEven a ≤ roundEven b := by
  have hf : ⌊a⌋ ≤ ⌊b⌋ := Int.floor_mono h
  have ha := Int.floor_le a
  have hb := Int.lt_floor_add_one b
  have up : roundEven a ≤ ⌊a⌋ + 1 := by
    unfold roundEven; split_ifs <;> omega
  have lo : ⌊b⌋ ≤ roundEven b := by
    unfold roundEven; split_ifs <;> omega
  rcases lt_or_eq_of_le hf with hlt | heq
  · omega
  · unfold roundEven
    rw [heq]
    split_ifs <;> first | omega | (exfalso; linarith) | skip

/-- Below 2^53 the neighbouring floating-point values divide 1. -/
theorem ulpAt_inv {x : ℚ} (h0 : 0 < x) (h : x < 2 ^ 53) : ∃ m : ℕ, ulpAt x = ((2 : ℚ) ^ m)⁻¹ := by
  have hl : Int.log 2 x < 53 := (Int.lt_zpow_iff_log_lt (b := 2) (by norm_num) h0).1 (by exact_mod_cast h)
  have hk : max (Int.log 2 x) (-1022) - 52 ≤ 0 := by omega
  refine ⟨(-(max (Int.log 2 x) (-1022) - 52)).toNat, ?_⟩
  unfold ulpAt
  rw [← zpow_natCast, ← zpow_neg]
  congr 1
  omega

/-- Rounding below 2^53 stays between the neighbouring integers. -/
theorem roundPos_between {x : ℚ} (h0 : 0 ≤ x) (h : x < 2 ^ 53) :
    (⌊x⌋ : ℚ) ≤ roundPos x ∧ roundPos x ≤ (⌈x⌉ : ℚ) := by
  unfold roundPos
  split
  · rename_i e; subst e; simp
  rename_i hne
  obtain ⟨m, hm⟩ := ulpAt_inv (lt_of_le_of_ne h0 (Ne.symm hne)) h
  rw [hm]
  have hp : (0 : ℚ) < 2 ^ m := by positivity
  have hz : ∀ z : ℤ, roundEven ((z : ℚ) * 2 ^ m) = z * 2 ^ m := by
    intro z
    have := roundEven_int (z * 2 ^ m)
    push_cast at this
    exact this
  rw [div_inv_eq_mul]
  have h1 := roundEven_mono (mul_le_mul_of_nonneg_right (Int.floor_le x) hp.le)
  have h2 := roundEven_mono (mul_le_mul_of_nonneg_right (Int.le_ceil x) hp.le)
  rw [hz] at h1 h2
  rw [← div_eq_mul_inv, le_div_iff₀ hp, div_le_iff₀ hp]
  constructor
  · exact_mod_cast h1
  · exact_mod_cast h2

theorem F64_round_fin {x : ℚ} (h0 : 0 ≤ x) (h : x < 2 ^ 53) : F64.round x = .fin (roundPos x) := by
  unfold F64.round
  rw [if_neg (not_lt.2 h0), if_neg]
  rw [not_le]
  have h1 := (roundPos_between h0 h).2
  have h2 : ⌈x⌉ ≤ 2 ^ 53 := Int.ceil_le.2 (by push_cast; exact h.le)
  have h3 : (⌈x⌉ : ℚ) ≤ 2 ^ 53 := by exact_mod_cast h2
  calc roundPos x ≤ 2 ^ 53 := h1.trans h3
    _ < 2 ^ 1024 := pow_lt_pow_right₀ (by norm_num) (by norm_num)

theorem F64_ofNat_exact {n : Nat} (h : n < 2 ^ 53) : F64.ofNat n = .fin n := by
  have hq : (n : ℚ) < 2 ^ 53 := by exact_mod_cast h
  unfold F64.ofNat
  rw [F64_round_fin (by positivity) hq]
  obtain ⟨h1, h2⟩ := roundPos_between (x := (n : ℚ)) (by positivity) hq
  simp only [Int.floor_natCast, Int.ceil_natCast, Int.cast_natCast] at h1 h2
  rw [le_antisymm h2 h1]

/-- The computed threshold is between the product rounded down and up. -/
theorem scaledThreshold_between {q : ℚ} {n : Nat} (h0 : 0 ≤ q) (hn : n < 2 ^ 53) (h : q * n < 2 ^ 53) :
    ⌊q * n⌋ ≤ (scaledThreshold (.fin q) n : ℤ) ∧ (scaledThreshold (.fin q) n : ℤ) ≤ ⌈q * n⌉ := by
  have hp : 0 ≤ q * n := by positivity
  unfold scaledThreshold
  rw [F64_ofNat_exact hn]
  simp only [F64.mul]
  rw [F64_round_fin hp h]
  simp only [F64.toU64]
  obtain ⟨h1, h2⟩ := roundPos_between hp h
  have f1 : ⌊q * n⌋ ≤ ⌊roundPos (q * n)⌋ := Int.le_floor.2 h1
  have f2 : ⌊roundPos (q * n)⌋ ≤ ⌈q * n⌉ := by
    have : (⌊roundPos (q * n)⌋ : ℚ) ≤ ⌈q * n⌉ := (Int.floor_le _).trans h2
    exact_mod_cast this
  have f3 : ⌈q * n⌉ ≤ 2 ^ 53 := Int.ceil_le.2 (by push_cast; exact h.le)
  have f0 : 0 ≤ ⌊q * n⌋ := Int.floor_nonneg.2 hp
  omega

/-- Halves below 2^52 are not rounded. -/
theorem roundPos_half {k : Nat} (h : k < 2 ^ 53) : roundPos ((k : ℚ) / 2) = k / 2 := by
  unfold roundPos
  split
  · rename_i e; rw [e]
  rename_i hne
  have h0 : (0 : ℚ) < k / 2 := lt_of_le_of_ne (by positivity) (Ne.symm hne)
  have hk : (k : ℚ) < 2 ^ 53 := by exact_mod_cast h
  have hlt : (k : ℚ) / 2 < 2 ^ 52 := by
    rw [div_lt_iff₀ (by norm_num)]
    calc (k : ℚ) < 2 ^ 53 := hk
      _ = 2 ^ 52 * 2 := by norm_num
  have hl : Int.log 2 ((k : ℚ) / 2) < 52 :=
    (Int.lt_zpow_iff_log_lt (b := 2) (by norm_num) h0).1 (by exact_mod_cast hlt)
  obtain ⟨m, hm⟩ : ∃ m : ℕ, ulpAt ((k : ℚ) / 2) = ((2 : ℚ) ^ (m + 1))⁻¹ := by
    refine ⟨(-(max (Int.log 2 ((k : ℚ) / 2)) (-1022) - 52) - 1).toNat, ?_⟩
    unfold ulpAt
    rw [← zpow_natCast, ← zpow_neg]
    congr 1
    push_cast
    omega
  rw [hm, div_inv_eq_mul]
  have : (k : ℚ) / 2 * 2 ^ (m + 1) = ((k * 2 ^ m : ℤ) : ℚ) := by
    push_cast; rw [pow_succ]; ring
  rw [this, roundEven_int, ← this]
  field_simp

/-- Half of the clients, rounded down. -/
theorem scaledThreshold_half {n : Nat} (h : n < 2 ^ 53) : scaledThreshold (.fin (1 / 2)) n = n / 2 := by
  have hq : (n : ℚ) < 2 ^ 53 := by exact_mod_cast h
  unfold scaledThreshold
  rw [F64_ofNat_exact h]
  simp only [F64.mul]
  have e : (1 / 2 : ℚ) * n = (n : ℚ) / 2 := by ring
  have hp : (0 : ℚ) ≤ (n : ℚ) / 2 := by positivity
  rw [e, F64_round_fin hp (by linarith), roundPos_half h]
  simp only [F64.toU64]
  have : ⌊(n : ℚ) / 2⌋ = ((n / 2 : ℕ) : ℤ) := by
    have := Rat.floor_intCast_div_natCast (n : ℤ) 2
    push_cast at this ⊢
    exact this
  rw [this, Int.toNat_natCast]
  omega

end Mastic
