/-
What the theorems about `Exponential` and `Normal` assume of `math.Log` and `math.Exp`, and "at most" for a float.
-/
import Verif.Spec.Zig
import Mathlib.Analysis.SpecialFunctions.Log.Basic
import Mathlib.Analysis.SpecialFunctions.Exp
namespace Crazy

/-- `math.Log` returns -Inf for 0 (as documented) and is accurate to a relative error of `2^-50` on positive numbers (the
implementation claims less than one unit in the last place, that is `2^-52`). -/
structure LogOk (lib : MathLib) : Prop where
  zero : ∀ s, lib.log (.fin s 0) = .inf true
  pos : ∀ x : F64, x.IsFin → x.Valid → 0 < rv x →
    (lib.log x).IsFin ∧ (lib.log x).Valid ∧ |rv (lib.log x) - Real.log (rv x)| ≤ |Real.log (rv x)| / 2 ^ 50

/-- `math.Exp` is accurate to a relative error of `2^-50` on [-32, 0] (the implementation claims less than one unit in the last
place, that is `2^-52`). -/
def ExpOk (lib : MathLib) : Prop := ∀ x : F64, x.IsFin → x.Valid → -32 ≤ rv x → rv x ≤ 0 →
  (lib.exp x).IsFin ∧ |rv (lib.exp x) - Real.exp (rv x)| ≤ Real.exp (rv x) / 2 ^ 50

/-- The float is at most the real number `t` (a finite float, or -Inf). -/
def AtMost (t : ℝ) (r : F64) : Prop := r = .inf true ∨ (r.IsFin ∧ rv r ≤ t)

/-- The rate is a positive number (not +Inf: +Inf/+Inf would be NaN). -/
def PosRate (rate : F64) : Prop := rate.IsFin ∧ 0 < rv rate ∧ rate.Valid

end Crazy
