/-
Specification vocabulary: where an element of a shuffled slice ends up.
-/
import Mathlib.Data.Real.Basic
namespace Crazy

/-- If positions 0, 1, ..., n-1 are in turn exchanged with a position chosen uniformly from all `n`, the probability that what was at
position `i` ends up at position `p`. With `q = 1 - 1/n`. -/
noncomputable def landing (n i p : Nat) : ℝ :=
  let q : ℝ := 1 - 1 / n
  if i ≤ p then (q ^ i + q ^ (n - 1 - p) * (1 - q ^ i)) / n else (q ^ i + q ^ (n - 1 - p)) / n

end Crazy
