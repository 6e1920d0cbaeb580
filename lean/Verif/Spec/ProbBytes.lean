/-
Specification vocabulary: the probability that something holds of a number of independent, uniformly distributed bytes.
-/
import Verif.Spec.CountBytes
import Mathlib.Data.Real.Basic
namespace Crazy

/-- Of all strings of `n` bytes, the share of those that satisfy `P`: the probability of `P` when `n` bytes are drawn independently and uniformly. -/
noncomputable def probBytes (n : Nat) (P : List Byte → Prop) : ℝ := (countBytes n P : ℝ) / 256 ^ n

end Crazy
