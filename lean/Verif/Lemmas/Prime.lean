import Mathlib.NumberTheory.LucasPrimality
import Mathlib.Tactic.NormNum.Prime
import Mathlib.Tactic.ReduceModChar
import Verif.Model.Base

/-!
# The modulus of `Field128` is prime

By two Lucas certificates.
-/

namespace Mastic

theorem prime_factor : Nat.Prime 440340496364689 := by
  refine lucas_primality _ (11 : ZMod 440340496364689) ?_ ?_
  · reduce_mod_char
  · intro q hq hd
    have h : q = 2 ∨ q = 3 ∨ q = 72973 ∨ q = 125714447 := by
      have e : 440340496364689 - 1 = 2 ^ 4 * (3 * (72973 * 125714447)) := by norm_num
      rw [e] at hd
      rcases hq.dvd_mul.1 hd with h | h
      · exact Or.inl ((Nat.prime_dvd_prime_iff_eq hq Nat.prime_two).1 (hq.dvd_of_dvd_pow h))
      rcases hq.dvd_mul.1 h with h | h
      · exact Or.inr (Or.inl ((Nat.prime_dvd_prime_iff_eq hq (by norm_num)).1 h))
      rcases hq.dvd_mul.1 h with h | h
      · exact Or.inr (Or.inr (Or.inl ((Nat.prime_dvd_prime_iff_eq hq (by norm_num)).1 h)))
      · exact Or.inr (Or.inr (Or.inr ((Nat.prime_dvd_prime_iff_eq hq (by norm_num)).1 h)))
    rcases h with rfl | rfl | rfl | rfl <;> norm_num <;> reduce_mod_char <;> decide +kernel

/-- `Field128` is a field. -/
theorem fieldModulus_prime : Nat.Prime fieldModulus := by
  unfold fieldModulus
  refine lucas_primality _ (7 : ZMod 340282366920938462946865773367900766209) ?_ ?_
  · reduce_mod_char
  · intro q hq hd
    have h : q = 2 ∨ q = 3 ∨ q = 3491 ∨ q = 440340496364689 := by
      have e : 340282366920938462946865773367900766209 - 1 = 2 ^ 66 * (3 * (3491 * 440340496364689)) := by
        norm_num
      rw [e] at hd
      rcases hq.dvd_mul.1 hd with h | h
      · exact Or.inl ((Nat.prime_dvd_prime_iff_eq hq Nat.prime_two).1 (hq.dvd_of_dvd_pow h))
      rcases hq.dvd_mul.1 h with h | h
      · exact Or.inr (Or.inl ((Nat.prime_dvd_prime_iff_eq hq (by norm_num)).1 h))
      rcases hq.dvd_mul.1 h with h | h
      · exact Or.inr (Or.inr (Or.inl ((Nat.prime_dvd_prime_iff_eq hq (by norm_num)).1 h)))
      · exact Or.inr (Or.inr (Or.inr ((Nat.prime_dvd_prime_iff_eq hq prime_factor).1 h)))
    rcases h with rfl | rfl | rfl | rfl <;> norm_num <;> reduce_mod_char <;> decide +kernel

instance : Fact (Nat.Prime fieldModulus) := ⟨fieldModulus_prime⟩

end Mastic
