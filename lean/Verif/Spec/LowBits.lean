/-
Specification vocabulary: linear recurrences of the low-order bits of the outputs.
-/
import Verif.Spec.Period
import Mathlib.Algebra.BigOperators.Group.Finset.Basic
namespace Crazy

/-- In the run from `s` the low-order bit of every output, from number `d` on, is the sum modulo 2 of those of some of the `d` outputs
before it: `c i` says whether the one `d - i` places before takes part. -/
def LowBitRec {σ : Type} (next : σ → Go (U64 × σ)) (s : σ) (d : Nat) (c : Nat → Nat) : Prop :=
  ∀ x : Nat → U64, (∀ n, Emits next s n [x n]) →
    ∀ n, (x (n + d)).toNat % 2 = (∑ i ∈ Finset.range d, c i * (x (n + i)).toNat) % 2

/-- Bit `b` of a word, 0 or 1. -/
def bitAt (x : U64) (b : Nat) : Nat := x.toNat / 2 ^ b % 2

/-- In the run from `s` bit `b` of every output, from number `d` on, is the sum modulo 2 of bit `b` of some of the `d` outputs before it:
`c i` says whether the one `d - i` places before takes part. -/
def BitRec {σ : Type} (next : σ → Go (U64 × σ)) (s : σ) (b d : Nat) (c : Nat → Nat) : Prop :=
  ∀ x : Nat → U64, (∀ n, Emits next s n [x n]) →
    ∀ n, bitAt (x (n + d)) b = (∑ i ∈ Finset.range d, c i * bitAt (x (n + i)) b) % 2

end Crazy
