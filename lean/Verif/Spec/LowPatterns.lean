/-
Specification vocabulary: how evenly the bits of the outputs are spread over a period.
-/
import Verif.Spec.EvenTuples
import Mathlib.Data.Real.Basic
namespace Crazy

/-- In the first `M` calls from `s` every pattern `v` of the lowest bits of `l ≤ L` successive results comes `M / 2^l` times, up to `ε`. -/
def LowPatterns {σ : Type} (call : σ → Go (U64 × σ)) (s : σ) (M L : Nat) (ε : ℝ) : Prop :=
  ∀ l ≤ L, ∀ v : Nat → Bool, |(timesInRow call s M l (fun i x => x.getLsbD 0 = v i) : ℝ) - (M : ℝ) / 2 ^ l| ≤ ε

/-- In the first `M * 2^b` calls from `s` bit `b` of the result is set, and clear, at least a fraction `r` of the time. -/
def BitsVary {σ : Type} (call : σ → Go (U64 × σ)) (s : σ) (M : Nat) (r : ℝ) : Prop :=
  ∀ b < 64, ∀ v : Bool, r * (M * 2 ^ b : ℝ) ≤ timesReturned call s (M * 2 ^ b) (fun x => x.getLsbD b = v)

end Crazy
