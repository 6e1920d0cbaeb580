/-
Specification vocabulary: what the outputs seen so far say about those to come.
-/
import Verif.Spec.LowBits
namespace Crazy

/-- Call number `n` (counting from 0) of a run from `s` and of a run from `t` return the same word. -/
def SameOut {σ : Type} (next : σ → Go (U64 × σ)) (s t : σ) (n : Nat) : Prop := ∃ x, Emits next s n [x] ∧ Emits next t n [x]

/-- They return words with the same bit `b`. -/
def SameBit {σ : Type} (next : σ → Go (U64 × σ)) (b : Nat) (s t : σ) (n : Nat) : Prop :=
  ∃ x y, Emits next s n [x] ∧ Emits next t n [y] ∧ bitAt x b = bitAt y b

/-- The first `k` outputs of a generator in a state of the kind `Ok` determine all later ones. -/
def Predicts {σ : Type} (next : σ → Go (U64 × σ)) (Ok : σ → Prop) (k : Nat) : Prop :=
  ∀ s t, Ok s → Ok t → (∀ n < k, SameOut next s t n) → ∀ n, SameOut next s t n

/-- Bit `b` alone of the first `k` outputs determines all outputs. -/
def BitPredicts {σ : Type} (next : σ → Go (U64 × σ)) (Ok : σ → Prop) (b k : Nat) : Prop :=
  ∀ s t, Ok s → Ok t → (∀ n < k, SameBit next b s t n) → ∀ n, SameOut next s t n

end Crazy
