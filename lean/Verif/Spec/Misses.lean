/-
Specification vocabulary: results that never come.
-/
import Verif.Model.Util
import Verif.Model.RandString
import Verif.Props.Shuffle
import Mathlib.Data.List.Nodup
namespace Crazy

/-- For every slice of `n` different elements there is an order that none of the shuffles brings it into, from any state of the kind `Ok`. -/
def ShuffleMisses {σ : Type} (src : Source σ) (Ok : σ → Prop) (n : Nat) : Prop :=
  ∀ (α : Type) (data : List α), data.length = n → data.Nodup → ∃ p : List α, p.Perm data ∧
    ∀ s, Ok s → ∀ fuel s', shuffleSlice src fuel data s ≠ .ok (p, s') ∧ shuffle (sliceSwapper α) src fuel data s ≠ .ok (p, s')

/-- Whatever the alphabet, of `a` different letters, there is a text of `n` of its letters that `RandString` never returns, from any state
of the kind `Ok`. -/
def StringMisses {σ : Type} (src : Source σ) (Ok : σ → Prop) (a n : Nat) : Prop :=
  ∀ alphabet : List Byte, (runes alphabet).length = a → (runes alphabet).Nodup → ∃ text : List Nat,
    text.length = n ∧ (∀ r ∈ text, r ∈ runes alphabet) ∧ ∀ s, Ok s → ∀ fuel s', randString src fuel alphabet n s ≠ .ok (stringOf text, s')

/-- With at most `K` different states there is no more than that. -/
structure Misses {σ : Type} (src : Source σ) (Ok : σ → Prop) (K : Nat) : Prop where
  shuffle : ∀ n < 2 ^ 63, K < n.factorial → ShuffleMisses src Ok n
  string : ∀ a n, K < a ^ n → StringMisses src Ok a n

end Crazy
