/-
Specification vocabulary: what Uintn and Intn return over a whole period.
-/
import Verif.Spec.CallPeriod
import Verif.Props.Uintn
namespace Crazy

/-- What `Uintn` returns over a period of `2^N - 1` words: `B` is the largest multiple of `max` below `2^64`. -/
structure UintnEven {σ : Type} (src : Source σ) (s : σ) (N : Nat) : Prop where
  /-- The `(B+1) 2^(N-64) - 1` calls that use up one period return each number but 0 `B/max` times `2^(N-64)` times, and 0 another
  `2^(N-64) - 1` times. -/
  uintn : ∀ (max : U64) (B : Nat), max ≠ 0#64 → LargestMultiple max.toNat B → ∀ fuel ≥ 2 ^ N - 1, ∀ r : U64, r.toNat < max.toNat →
    timesReturned (RNG.uintn src fuel max) s ((B + 1) * 2 ^ (N - 64) - 1) (· = r) =
      B / max.toNat * 2 ^ (N - 64) + if r = 0#64 then 2 ^ (N - 64) - 1 else 0
  /-- Then the results come again. -/
  again : ∀ (max : U64) (B : Nat), max ≠ 0#64 → LargestMultiple max.toNat B → ∀ fuel ≥ 2 ^ N - 1,
    CallPeriod (RNG.uintn src fuel max) s ((B + 1) * 2 ^ (N - 64) - 1)
  /-- `Intn` likewise. -/
  intn : ∀ (max : Int) (B : Nat), 0 < max → max < 2 ^ 63 → LargestMultiple max.toNat B → ∀ fuel ≥ 2 ^ N - 1, ∀ r : Int, 0 ≤ r → r < max →
    timesReturned (RNG.intn src fuel max) s ((B + 1) * 2 ^ (N - 64) - 1) (· = r) =
      B / max.toNat * 2 ^ (N - 64) + if r = 0 then 2 ^ (N - 64) - 1 else 0

end Crazy
