import Verif.Model.Float

/-!
# The floating-point logarithm of the number of leaves (`src/collect.rs:485`)

`1 << (combined_hashes.len() as f32).log2().ceil() as usize`.  The conversion to `f32` rounds to nearest, ties to even.
`f32::log2` calls the platform's `log2f`, whose precision Rust leaves open; it is a parameter here, and theorems state
what they need of it.
-/

namespace Mastic

/-- `n as f32` for a `usize` (`src/collect.rs:485`): 24 significant bits; `usize` is far below the largest `f32` and
has no subnormal values. -/
def F32.ofNat (n : Nat) : ℚ :=
  if n = 0 then 0 else roundEven (n / 2 ^ (Int.log 2 (n : ℚ) - 23)) * 2 ^ (Int.log 2 (n : ℚ) - 23)

/-- `(n as f32).log2().ceil() as usize` (`src/collect.rs:485`).  For `n = 0` the logarithm is minus infinity, which
`as usize` turns into 0, as it does with negative numbers. -/
def ceilLog2F32 (log2f : ℚ → ℚ) (n : Nat) : Nat :=
  if n = 0 then 0 else ⌈log2f (F32.ofNat n)⌉.toNat

end Mastic
