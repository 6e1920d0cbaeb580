/-
Specification vocabulary: how two runs of one generator compare.
-/
import Verif.Spec.Period
namespace Crazy

/-- Among the first `k` outputs of a run from `s` and of a run from `t` there are two, at the same place, that differ. -/
def Apart {σ : Type} (next : σ → Go (U64 × σ)) (k : Nat) (s t : σ) : Prop :=
  ∃ n < k, ∃ x y, Emits next s n [x] ∧ Emits next t n [y] ∧ x ≠ y

/-- The run from `t` is the run from `s` less its first `d` outputs. -/
def ShiftOf {σ : Type} (next : σ → Go (U64 × σ)) (d : Nat) (s t : σ) : Prop :=
  ∀ n x, Emits next t n [x] ↔ Emits next s (d + n) [x]

end Crazy
