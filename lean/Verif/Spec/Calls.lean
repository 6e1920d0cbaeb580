/-
Specification vocabulary: a run of calls of one method.
-/
import Verif.Model.Distr
import Verif.Spec.Float
import Mathlib.SetTheory.Cardinal.Finite
namespace Crazy

/-- In a run of calls from `s`, call number `n` (counting from 0) returns `v`. -/
def Nth {σ α : Type} (call : σ → Go (α × σ)) : Nat → σ → α → Prop
  | 0, s, v => ∃ t, call s = .ok (v, t)
  | n + 1, s, v => ∃ w t, call s = .ok (w, t) ∧ Nth call n t v

/-- How many of the first `P` calls return a value that satisfies `A`. -/
noncomputable def timesReturned {σ α : Type} (call : σ → Go (α × σ)) (s : σ) (P : Nat) (A : α → Prop) : Nat :=
  Nat.card {n : Nat // n < P ∧ ∃ v, Nth call n s v ∧ A v}

/-- In `2^N - 1` calls every result comes equally often, but the one for zero once less. -/
structure EvenOverPeriod {σ : Type} (src : Source σ) (s : σ) (N : Nat) : Prop where
  uint64 : ∀ v, timesReturned (RNG.uint64 src) s (2 ^ N - 1) (· = v) = if v = 0#64 then 2 ^ (N - 64) - 1 else 2 ^ (N - 64)
  uint32 : ∀ v, timesReturned (RNG.uint32 src) s (2 ^ N - 1) (· = v) = if v = 0#32 then 2 ^ (N - 32) - 1 else 2 ^ (N - 32)
  uint16 : ∀ v, timesReturned (RNG.uint16 src) s (2 ^ N - 1) (· = v) = if v = 0#16 then 2 ^ (N - 16) - 1 else 2 ^ (N - 16)
  uniform1_2 : ∀ m : Nat, m < 2 ^ 52 → timesReturned (uniform12 src) s (2 ^ N - 1) (fun x => x.IsFin ∧ x.val = 1 + (m : ℚ) / 2 ^ 52) =
    if m = 0 then 2 ^ (N - 52) - 1 else 2 ^ (N - 52)
  uniform0_1 : ∀ m : Nat, m < 2 ^ 53 → timesReturned (uniform01 src) s (2 ^ N - 1) (fun x => x.IsFin ∧ x.val = (m : ℚ) / 2 ^ 53) =
    if m = 0 then 2 ^ (N - 53) - 1 else 2 ^ (N - 53)

end Crazy
