import Mathlib.Analysis.SpecialFunctions.Log.Base

/-!
# What an `f32` logarithm may return
-/

namespace Mastic.Spec

/-- The finite values of IEEE 754 binary32. -/
def IsF32 (y : ℚ) : Prop := |y| < 2 ^ 128 ∧ ∃ a e : ℤ, |a| < 2 ^ 24 ∧ -149 ≤ e ∧ y = a * 2 ^ e

/-- The logarithm is computed with an error of less than one unit in the last place: the result is an `f32`, and no
`f32` lies between it and the true logarithm (in particular it is exact when the logarithm is an `f32`). -/
def FaithfulLog2 (log2f : ℚ → ℚ) : Prop :=
  ∀ x, 0 < x → IsF32 x → IsF32 (log2f x) ∧ ∀ y, IsF32 y →
    ((y : ℝ) ≤ Real.logb 2 x → y ≤ log2f x) ∧ (Real.logb 2 x ≤ y → log2f x ≤ y)

/-- The logarithm is correctly rounded: the result is an `f32`, and none is nearer to the true logarithm. -/
def NearestLog2 (log2f : ℚ → ℚ) : Prop :=
  ∀ x, 0 < x → IsF32 x → IsF32 (log2f x) ∧ ∀ y, IsF32 y →
    |(log2f x : ℝ) - Real.logb 2 x| ≤ |(y : ℝ) - Real.logb 2 x|

end Mastic.Spec
