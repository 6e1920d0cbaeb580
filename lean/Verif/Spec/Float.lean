/-
Specification vocabulary for `float64`: which numbers there are, and what rounding to the nearest one means.
-/
import Verif.Model.Float
import Mathlib.Data.Rat.Defs
import Mathlib.Algebra.Order.Ring.Rat
import Mathlib.Algebra.Order.Ring.Abs
namespace Crazy
namespace F64

/-- 53 significant bits suffice for `n`. -/
def Short (n : Nat) : Prop := ∃ m k, m < 2 ^ 53 ∧ n = m * 2 ^ k

/-- The values a `float64` can have: a magnitude of 53 significant bits below `2^1024`, an infinity or NaN. -/
def Valid : F64 → Prop
  | fin _ n => Short n ∧ n < limit
  | _ => True

/-- The number a finite `float64` denotes (infinities and NaN are sent to 0). -/
def val : F64 → ℚ
  | fin s n => (if s then -1 else 1) * (n / 2 ^ 1074)
  | _ => 0

/-- It denotes a number. -/
def IsFin : F64 → Prop
  | fin _ _ => True
  | _ => False

/-- `r` is a nearest number of 53 significant bits to `a / b`, and in case of a tie the even one: with the last bit of
the 53 equal to 0. -/
def IsNearestEven (a b r : Nat) : Prop :=
  Short r ∧ (∀ y, Short y → |(a / b : ℚ) - r| ≤ |(a / b : ℚ) - y|) ∧
  ∀ y, Short y → y ≠ r → |(a / b : ℚ) - r| = |(a / b : ℚ) - y| → ∃ m k, m < 2 ^ 52 ∧ r = 2 * m * 2 ^ k

end F64
end Crazy
