/-
Specification vocabulary: the probability that something holds of a number of independent, uniformly distributed words.
-/
import Verif.Spec.Count
import Mathlib.Data.Real.Basic
namespace Crazy

/-- Of all lists of `k` words, the share of those that satisfy `P`: the probability of `P` when `k` words are drawn
independently and uniformly. -/
noncomputable def prob (k : Nat) (P : List U64 → Prop) : ℝ :=
  (Nat.card {t : List U64 // t.length = k ∧ P t} : ℝ) / (Nat.card {t : List U64 // t.length = k} : ℝ)

/-- Of all lists of `m` numbers below `N`, the share of those that satisfy `S`: the probability of `S` when `m` numbers below `N` are
drawn independently and uniformly. -/
noncomputable def uniformShare (N m : Nat) (S : List Nat → Prop) : ℝ :=
  (Nat.card {l : List (Fin N) // l.length = m ∧ S (l.map Fin.val)} : ℝ) / (N : ℝ) ^ m

end Crazy
