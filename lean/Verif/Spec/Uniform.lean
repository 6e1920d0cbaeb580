/-
Specification vocabulary: the uniform distribution on [0, 1].
-/
import Mathlib.Data.Real.Basic
namespace Crazy

/-- A number confined to [0, 1]: the distribution function of the uniform distribution on [0, 1]. -/
noncomputable def unitCdf (x : ℝ) : ℝ := max 0 (min 1 x)

end Crazy
