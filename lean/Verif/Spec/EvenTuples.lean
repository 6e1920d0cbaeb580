/-
Specification vocabulary: tuples of successive results over a whole period.
-/
import Verif.Spec.Calls
namespace Crazy

/-- At how many of the first `P` places of a run of calls from `s` the next `l` results are as `A` says. -/
noncomputable def timesInRow {σ α : Type} (call : σ → Go (α × σ)) (s : σ) (P l : Nat) (A : Nat → α → Prop) : Nat :=
  Nat.card {n : Nat // n < P ∧ ∀ i < l, ∃ v, Nth call (n + i) s v ∧ A i v}

open Classical in
/-- In a period of `2^N - 1` calls every tuple of `l ≤ D` successive results comes equally often, but the one of zeros once less. -/
structure EvenTuples {σ : Type} (src : Source σ) (s : σ) (N D : Nat) : Prop where
  uint64 : ∀ l ≤ D, ∀ v : Nat → U64, timesInRow (RNG.uint64 src) s (2 ^ N - 1) l (fun i x => x = v i) =
    if ∀ i < l, v i = 0#64 then 2 ^ (N - 64 * l) - 1 else 2 ^ (N - 64 * l)
  uint32 : ∀ l ≤ D, ∀ v : Nat → BitVec 32, timesInRow (RNG.uint32 src) s (2 ^ N - 1) l (fun i x => x = v i) =
    if ∀ i < l, v i = 0#32 then 2 ^ (N - 32 * l) - 1 else 2 ^ (N - 32 * l)
  uint16 : ∀ l ≤ D, ∀ v : Nat → BitVec 16, timesInRow (RNG.uint16 src) s (2 ^ N - 1) l (fun i x => x = v i) =
    if ∀ i < l, v i = 0#16 then 2 ^ (N - 16 * l) - 1 else 2 ^ (N - 16 * l)
  uniform1_2 : ∀ l ≤ D, ∀ m : Nat → Nat, (∀ i, m i < 2 ^ 52) →
    timesInRow (uniform12 src) s (2 ^ N - 1) l (fun i x => x.IsFin ∧ x.val = 1 + (m i : ℚ) / 2 ^ 52) =
      if ∀ i < l, m i = 0 then 2 ^ (N - 52 * l) - 1 else 2 ^ (N - 52 * l)
  uniform0_1 : ∀ l ≤ D, ∀ m : Nat → Nat, (∀ i, m i < 2 ^ 53) →
    timesInRow (uniform01 src) s (2 ^ N - 1) l (fun i x => x.IsFin ∧ x.val = (m i : ℚ) / 2 ^ 53) =
      if ∀ i < l, m i = 0 then 2 ^ (N - 53 * l) - 1 else 2 ^ (N - 53 * l)

end Crazy
