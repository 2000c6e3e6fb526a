import Mathlib.Data.Int.Log
import Mathlib.Data.Rat.Floor

/-!
# The floating-point operations of the driver's threshold (`src/bin/driver.rs:394-396, 473-475`)

IEEE 754 binary64 as Rust uses it: round to nearest, ties to even.  A value is its rational number; the two zeros are
not distinguished (no operation here does).
-/

namespace Mastic

/-- Values of `f64`.
IEEE 754, external; used in `src/bin/driver.rs:395,474` and `src/collect.rs:485`. -/
inductive F64 where
  | nan
  | inf (neg : Bool)
  | fin (q : ℚ)
  deriving DecidableEq

/-- Nearest integer, ties to even.
IEEE 754, external; used in `src/bin/driver.rs:395,474` and `src/collect.rs:485`. -/
def roundEven (q : ℚ) : ℤ :=
  if q - ⌊q⌋ < 1 / 2 then ⌊q⌋
  else if 1 / 2 < q - ⌊q⌋ then ⌊q⌋ + 1
  else if ⌊q⌋ % 2 = 0 then ⌊q⌋ else ⌊q⌋ + 1

/-- Distance of neighbouring `f64` values at a positive number: 52 binary places below the leading one, at least
2^-1074. IEEE 754, external; used in `src/bin/driver.rs:395,474` and `src/collect.rs:485`. -/
def ulpAt (q : ℚ) : ℚ := 2 ^ (max (Int.log 2 q) (-1022) - 52)

/-- The nearest multiple of the distance, for a non-negative number.
IEEE 754, external; used in `src/bin/driver.rs:395,474` and `src/collect.rs:485`. -/
def roundPos (q : ℚ) : ℚ := if q = 0 then 0 else roundEven (q / ulpAt q) * ulpAt q

/-- Rounding of an exact result to `f64`.
IEEE 754, external; used in `src/bin/driver.rs:395,474` and `src/collect.rs:485`. -/
def F64.round (q : ℚ) : F64 :=
  if q < 0 then
    if 2 ^ 1024 ≤ roundPos (-q) then .inf true else .fin (-roundPos (-q))
  else
    if 2 ^ 1024 ≤ roundPos q then .inf false else .fin (roundPos q)

/-- `n as f64` for a `usize`.
IEEE 754, external; used in `src/bin/driver.rs:395,474` and `src/collect.rs:485`. -/
def F64.ofNat (n : Nat) : F64 := F64.round n

/-- `a * b`. IEEE 754, external; used in `src/bin/driver.rs:395,474` and `src/collect.rs:485`. -/
def F64.mul : F64 → F64 → F64
  | .nan, _ => .nan
  | _, .nan => .nan
  | .inf s, .inf t => .inf (s != t)
  | .inf s, .fin b => if b = 0 then .nan else .inf (s != decide (b < 0))
  | .fin a, .inf t => if a = 0 then .nan else .inf (decide (a < 0) != t)
  | .fin a, .fin b => F64.round (a * b)

/-- `x as u64`: towards zero, saturating, NaN to 0.
IEEE 754, external; used in `src/bin/driver.rs:395,474` and `src/collect.rs:485`. -/
def F64.toU64 : F64 → Nat
  | .nan => 0
  | .inf true => 0
  | .inf false => 2 ^ 64 - 1
  | .fin q => min ⌊q⌋.toNat (2 ^ 64 - 1)

/-- `(threshold * (num_clients as f64)) as u64` (`src/bin/driver.rs:395, 474`). -/
def scaledThreshold (threshold : F64) (numClients : Nat) : Nat :=
  (threshold.mul (F64.ofNat numClients)).toU64

end Mastic
