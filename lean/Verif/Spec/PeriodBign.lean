/-
Specification vocabulary: big random numbers over the states of a whole period of a generator.
-/
import Verif.Spec.PeriodDist
import Verif.Props.Big
namespace Crazy

open Classical in
/-- Over the states of a period of `2^N - 1` words from `s` on, `Bign(max)` is distributed as stated, provided `T` draws take no more than `D`
words: a draw for a `max` of `k` bits takes `(k+8)/8` bytes (rounded down), in words of eight bytes. -/
structure BignOver {σ : Type} (next : σ → Go (U64 × σ)) (src : Source σ) (s : σ) (N D : Nat) : Prop where
  /-- For every set `S` of numbers: the share of the states from which `Bign(max)` returns a number in `S` is the share of `S` among the numbers
  below `max`, up to `2^-k + 3^-T` and one state. -/
  near : ∀ (max k T : Nat) (_ : 0 < max) (_ : NeedsBits max k) (_ : k % 8 ≠ 7) (_ : 0 < T) (_ : T * (((k + 8) / 8 + 7) / 8) ≤ D) (S : Nat → Prop),
    |shareOf next s (2 ^ N - 1) (ReturnsSome (fun retries => RNG.bign src retries (max : Int)) fun r => S r.toNat) -
      ((Finset.range max).filter S).card / max| ≤ 1 / 2 ^ k + 1 / 3 ^ T + 1 / ((2 ^ N - 1 : Nat) : ℝ)
  /-- But for a `max` of 7, 15, 23, ... bits it is the share of `S` among the numbers below `2^(k-7)`, less than a sixty-third of `max`,
  up to one state. -/
  small : ∀ (max k : Nat) (_ : 0 < max) (_ : NeedsBits max k) (_ : k % 8 = 7) (_ : ((k + 8) / 8 + 7) / 8 ≤ D) (S : Nat → Prop),
    |shareOf next s (2 ^ N - 1) (ReturnsSome (fun retries => RNG.bign src retries (max : Int)) fun r => S r.toNat) -
      ((Finset.range (2 ^ (k - 7))).filter S).card / 2 ^ (k - 7)| ≤ 1 / ((2 ^ N - 1 : Nat) : ℝ) ∧ 63 * 2 ^ (k - 7) < max

end Crazy
