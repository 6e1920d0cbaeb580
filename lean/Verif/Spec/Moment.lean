/-
Specification vocabulary: averages over all sequences of words, to speak of means and variances.
-/
import Verif.Spec.Prob
import Verif.Spec.MathLib
import Mathlib.Algebra.BigOperators.Finprod
namespace Crazy

/-- The average over all lists of `k` words: the expectation when `k` words are drawn independently and uniformly. -/
noncomputable def average (k : Nat) (X : List U64 → ℝ) : ℝ :=
  (∑ᶠ t : {t : List U64 // t.length = k}, X t.1) / (Nat.card {t : List U64 // t.length = k} : ℝ)

open Classical in
/-- What `g` makes of the number that a call returns from the list `w` of words, and 0 if it does not return a finite number. -/
noncomputable def ofDraw (call : List U64 → Go (F64 × List U64)) (g : ℝ → ℝ) (w : List U64) : ℝ :=
  match call w with
  | .ok (r, _) => if r.IsFin then g (rv r) else 0
  | .error _ => 0

end Crazy
