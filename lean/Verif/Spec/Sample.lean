/-
Specification vocabulary: samples, their means, and what a single call returns on average.
-/
import Verif.Spec.Moment
namespace Crazy

/-- The results of `N` calls, made one after the other. -/
def results {σ α : Type} (next : σ → Go (α × σ)) : Nat → σ → Go (List α × σ)
  | 0, s => .ok ([], s)
  | N + 1, s => do
    let (r, s) ← next s
    let (l, s) ← results next N s
    return (r :: l, s)

/-- The mean of `f` over a sample. -/
noncomputable def meanOf {α : Type} (f : α → ℝ) (l : List α) : ℝ := (l.map f).sum / l.length

/-- The average, over all lists of `m` words, of `f` of the result of a call; a list on which the call does not return counts 0. -/
noncomputable def expect {α : Type} (m : Nat) (next : List U64 → Go (α × List U64)) (f : α → ℝ) : ℝ :=
  average m fun w => match next w with
    | .ok (r, _) => f r
    | .error _ => 0

open Classical in
/-- The share of a sample that is in `S`. -/
noncomputable def shareIn {α : Type} (S : α → Prop) (l : List α) : ℝ := (l.countP fun r => S r : Nat) / (l.length : ℝ)

open Classical in
/-- A result of `Normal`, measured from the mean in units of the standard deviation; an infinite one counts 0. -/
noncomputable def standardised (mean stddev : F64) (r : F64) : ℝ := if r.IsFin then (rv r - rv mean) / rv stddev else 0

/-- `(c/a (1 + a/2^63))^m`: the bound for any one text of `m` letters, of an alphabet of `a` letters none of which it has more than `c` times. -/
noncomputable def tokenBound (a c m : Nat) : ℝ := ((c : ℝ) / a * (1 + a / 2 ^ 63)) ^ m

end Crazy
