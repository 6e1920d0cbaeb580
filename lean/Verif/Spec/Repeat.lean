/-
Specification vocabulary: the same data shuffled several times.
-/
import Verif.Props.Shuffle
import Mathlib.Data.Real.Basic
import Mathlib.Data.Nat.Factorial.Basic
namespace Crazy

/-- `k` calls of `ShuffleInts` (`ShuffleFloat64s`, `ShuffleStrings`) on the same slice. -/
def shuffleTimes {σ α : Type} (src : Source σ) (retries : Nat) : Nat → List α → σ → Go (List α × σ)
  | 0, data, s => .ok (data, s)
  | k + 1, data, s => do
    let (data, s) ← shuffleSlice src retries data s
    shuffleTimes src retries k data s

/-- Of all orders of the data, the share of those in `T`: the probability of `T` for a fair shuffle. -/
noncomputable def fairShare {α : Type} (data : List α) (T : List α → Prop) : ℝ :=
  (Nat.card {π : Equiv.Perm (Fin data.length) // T (permuted data π)} : ℝ) / (data.length.factorial : ℝ)

/-- How many of the ways to choose the swap partners in `k` shuffles lead to the order `π`. -/
noncomputable def waysTo (n k : Nat) (π : Equiv.Perm (Fin n)) : Nat :=
  Nat.card {js : Fin k → Fin n → Fin n // (List.ofFn fun i => shufflePerm (js i)).prod = π}

end Crazy
